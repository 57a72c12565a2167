import Verif.Lemmas.Units

/-! # `processData` in another unit -/

set_option linter.unusedSectionVars false

namespace Rtbot
namespace Measures
open Spec Mapped
variable {V : Type} [Num V] [Field V] [LinearOrder V] [IsStrictOrderedRing V] [Exact V] {c : V}

theorem foldlM_conv {α β : Type} {f g : β → α → Except Err β} {r : β → β} (h : ∀ b a, g (r b) a = (f b a).map r) (l : List α) :
    ∀ b, l.foldlM g (r b) = (l.foldlM f b).map r := by
  induction l with
  | nil => intro b; rfl
  | cons a l ih =>
    intro b
    rw [List.foldlM_cons, List.foldlM_cons]
    exact bind_conv (h b a) fun b' => ih b'

theorem procInput_conv (co : Core V) (pm : Map Str) (last : Map (Msg V)) :
    procInput (convCore c co) pm (onVals (convMsg c) last) = (procInput co pm last).map (convRes c) := by
  unfold procInput
  refine bind_conv (f := fun x => (convOut c x.1, onVals (convMsg c) x.2)) (foldlM_conv (r := fun x => (convOut c x.1, onVals (convMsg c) x.2)) ?_ co.toProcess ([], last)) fun x => rfl
  rintro ⟨out, last⟩ p
  unfold inputStep
  refine bind_conv (dataMsg_conv co p 0) fun m0 => ?_
  dsimp only
  rw [find_conv]
  have hs : (match pm.find? p with
      | none => undefined .endDeref
      | some q => .ok ((convOut c out).emplace q [convMsg c m0], ((onVals (convMsg c) last).erase p).emplace p (convMsg c m0)) :
        Except Err (OpMsg V × Map (Msg V))) = Except.map (fun x => (convOut c x.1, onVals (convMsg c) x.2)) (match pm.find? p with
      | none => undefined .endDeref
      | some q => .ok (out.emplace q [m0], (last.erase p).emplace p m0)) := by
    cases pm.find? p with
    | none => rfl
    | some q =>
      dsimp only [Except.map]
      rw [erase_conv, emplace_conv]
      exact congrArg (fun x => Except.ok (x, _)) (emplace_conv (List.map (convMsg c)) out q [m0])
  cases last.find? p with
  | none => exact hs
  | some l =>
    dsimp only [Option.map_some]
    by_cases h : l.time < m0.time
    · rw [if_pos (show (convMsg c l).time < (convMsg c m0).time from h), if_pos h]
      exact hs
    · rw [if_neg (show ¬ (convMsg c l).time < (convMsg c m0).time from h), if_neg h]
      rfl

theorem procOutput_conv (co : Core V) (pm : Map Str) : procOutput (convCore c co) pm = (procOutput co pm).map (convRes c) := by
  unfold procOutput
  refine bind_conv (f := convOut c) (foldlM_conv (r := convOut c) ?_ co.toProcess []) fun x => rfl
  intro out p
  refine bind_conv (dataLast_conv co p) fun m => ?_
  cases pm.find? p with
  | none => rfl
  | some q => exact congrArg Except.ok (emplace_conv (List.map (convMsg c)) out q [m])

theorem procLast_conv (co : Core V) {f g : Msg V → Except Err (OpMsg V × Kind V)} (h : ∀ m, g (convMsg c m) = (f m).map (convRes c)) :
    procLast (convCore c co) g = (procLast co f).map (convRes c) := by
  unfold procLast
  exact bind_conv (solePort_conv co) fun p => bind_conv (dataLast_conv co p) h

theorem procFilter_conv (hc : 0 < c) (co : Core V) (f : FilterOp) (v : V) :
    procFilter (convCore c co) f (c * v) = (procFilter co f v).map (convRes c) := by
  unfold procFilter
  refine procLast_conv co fun m => ?_
  have : f.eval (convMsg c m).value (c * v) = f.eval m.value v := by
    cases f
    · exact lt_conv hc _ _
    · exact lt_conv hc _ _
    · exact eq_conv hc _ _
  rw [this]
  cases f.eval m.value v <;> rfl

theorem procIdentity_conv (co : Core V) : procIdentity (convCore c co) = (procIdentity co).map (convRes c) := by
  unfold procIdentity
  exact bind_conv (solePort_conv co) fun p => bind_conv (dataFirst_conv co p) fun m => rfl

/-- The answer of one value. -/
theorem single_conv (t : UInt64) {x y : V} (h : y = c * x) (k : Kind V) : (Except.ok (single ⟨t, y⟩, convKind c k) : Except Err _) = (Except.ok (single ⟨t, x⟩, k)).map (convRes c) := by
  subst h
  rfl

theorem procDifference_conv (co : Core V) : procDifference (convCore c co) true = (procDifference co true).map (convRes c) := by
  unfold procDifference
  refine bind_conv (solePort_conv co) fun p => bind_conv (dataMsg_conv co p 1) fun m1 => bind_conv (dataMsg_conv co p 0) fun m0 => ?_
  refine bind_conv (f := id) (by rw [Except.map_id]; rfl) fun t => ?_
  refine single_conv t ?_ (.difference true)
  dsimp only [convMsg]
  rw [Exact.sub_eq, Exact.sub_eq, mul_sub]

theorem procMovAvg_conv (co : Core V) : procMovAvg (convCore c co) = (procMovAvg co).map (convRes c) := by
  unfold procMovAvg
  refine bind_conv (solePort_conv co) fun p => bind_conv (dataPort_conv co p) fun i => bind_conv (dataLast_conv co p) fun l => ?_
  refine single_conv _ ?_ .movAvg
  dsimp only [convInp]
  rw [Exact.div_eq, Exact.div_eq, List.length_map, mul_div_assoc]

theorem procStdDev_conv (hs : ∀ x : V, Num.sqrt (c * c * x) = c * Num.sqrt x) (co : Core V) : procStdDev (convCore c co) = (procStdDev co).map (convRes c) := by
  unfold procStdDev
  refine bind_conv (solePort_conv co) fun p => bind_conv (dataPort_conv co p) fun i => bind_conv (dataLast_conv co p) fun l => ?_
  refine single_conv _ ?_ .stdDev
  dsimp only [convInp]
  rw [List.length_map, ← hs]
  congr 1
  have : ∀ (l : List (Msg V)) (a s : V), (l.map (convMsg c)).foldl (fun s m => s +. Num.pow (m.value -. c * a) (Num.ofNat 2)) (c * c * s) =
      c * c * l.foldl (fun s m => s +. Num.pow (m.value -. a) (Num.ofNat 2)) s := by
    intro l a
    induction l with
    | nil => intro s; rfl
    | cons m l ih =>
      intro s
      rw [List.map_cons, List.foldl_cons, List.foldl_cons, ← ih]
      congr 1
      dsimp only [convMsg]
      rw [Exact.pow_two, Exact.pow_two, Exact.sub_eq, Exact.sub_eq, Exact.add_eq, Exact.add_eq]
      ring
  have h0 := this i.data (i.sum /. Num.ofNat i.data.length) (Num.ofNat 0)
  rw [show c * c * Num.ofNat 0 = Num.ofNat 0 by rw [Exact.ofNat_eq, Nat.cast_zero, mul_zero]] at h0
  rw [show c * i.sum /. Num.ofNat i.data.length = c * (i.sum /. Num.ofNat i.data.length) by rw [Exact.div_eq, Exact.div_eq, mul_div_assoc], h0,
    Exact.div_eq _ (Num.ofNat (subSize _ _)), Exact.div_eq _ (Num.ofNat (subSize _ _)), mul_div_assoc]

theorem procPeak_conv (hc : 0 < c) (co : Core V) : procPeak (convCore c co) = (procPeak co).map (convRes c) := by
  unfold procPeak
  refine bind_conv (solePort_conv co) fun p => bind_conv (dataPort_conv co p) fun i => ?_
  rw [show (convInp c i).data.length = i.data.length from List.length_map _]
  refine bind_conv (dataMsg_conv co p _) fun mid => ?_
  have : (convInp c i).data.any (fun m => Num.lt (convMsg c mid).value m.value) = i.data.any (fun m => Num.lt mid.value m.value) := by
    dsimp only [convInp]
    rw [List.any_map]
    congr 1
    funext m
    exact lt_conv hc _ _
  rw [this]
  cases i.data.any _ <;> rfl

theorem firLoop_conv : ∀ (ms : List (Msg V)) (as : List V) (acc : V), firLoop (c * acc) (ms.map (convMsg c)) as = (firLoop acc ms as).map (c * ·) := by
  intro ms
  induction ms with
  | nil => intro as acc; rfl
  | cons m ms ih =>
    intro as acc
    cases as with
    | nil => rfl
    | cons a as =>
      rw [List.map_cons, firLoop, firLoop, ← ih]
      congr 1
      dsimp only [convMsg]
      rw [Exact.add_eq, Exact.add_eq, Exact.mul_eq, Exact.mul_eq]
      ring

theorem procFir_conv (co : Core V) (as : List V) : procFir (convCore c co) as = (procFir co as).map (convRes c) := by
  unfold procFir
  refine bind_conv (solePort_conv co) fun p => bind_conv (dataPort_conv co p) fun i => bind_conv (dataLast_conv co p) fun l => ?_
  refine bind_conv (f := (c * ·)) ?_ fun v => single_conv _ rfl (.fir as)
  rw [← firLoop_conv]
  dsimp only [convInp]
  rw [List.map_reverse, Exact.ofNat_eq 0, Nat.cast_zero, mul_zero]

theorem procCumSum_conv (co : Core V) (acc : V) : procCumSum (convCore c co) (c * acc) = (procCumSum co acc).map (convRes c) := by
  unfold procCumSum
  refine procLast_conv co fun m => ?_
  dsimp only [convMsg]
  rw [Exact.add_eq, Exact.add_eq, ← mul_add]
  rfl

theorem constLoop_conv (dt t : UInt64) (lv : V) : ∀ (fuel : Nat) (next : UInt64),
    constLoop dt t (c * lv) fuel next = (constLoop dt t lv fuel next).map fun x => (x.1.map (convMsg c), x.2) := by
  intro fuel
  induction fuel with
  | zero => intro next; rfl
  | succ n ih =>
    intro next
    unfold constLoop
    split
    · exact bind_conv (ih _) fun x => rfl
    · rfl

/-- A possibly empty list of messages on `o1`. -/
theorem some_conv (ms : List (Msg V)) : (if ms.map (convMsg c) = [] then [] else [(o1, ms.map (convMsg c))] : OpMsg V) = convOut c (if ms = [] then [] else [(o1, ms)]) := by
  cases ms <;> rfl

theorem procConstRes_conv (co : Core V) (dt next : UInt64) (ini : Bool) (lv : V) :
    procConstRes (convCore c co) dt next ini (c * lv) = (procConstRes co dt next ini lv).map (convRes c) := by
  unfold procConstRes
  refine procLast_conv co fun m => ?_
  cases ini with
  | false => rfl
  | true =>
    rw [if_pos rfl, if_pos rfl]
    refine bind_conv (constLoop_conv dt _ lv _ next) fun x => ?_
    obtain ⟨ms, nx⟩ := x
    dsimp only
    by_cases h : nx = m.time
    · rw [if_pos (show nx = (convMsg c m).time from h), if_pos h]
      have := some_conv (c := c) (ms ++ [⟨m.time, m.value⟩])
      rw [List.map_append] at this
      exact congrArg (fun x => Except.ok (x, _)) this
    · rw [if_neg (show ¬ nx = (convMsg c m).time from h), if_neg h]
      exact congrArg (fun x => Except.ok (x, _)) (some_conv ms)

theorem procCosRes_conv (co : Core V) (dt carry : UInt64) : procCosRes (convCore c co) dt carry = (procCosRes co dt carry).map (convRes c) := by
  unfold procCosRes
  refine bind_conv (solePort_conv co) fun p => bind_conv (dataMsg_conv co p 1) fun b => bind_conv (dataMsg_conv co p 0) fun a => ?_
  refine bind_conv (f := id) (by rw [Except.map_id]; rfl) fun x => ?_
  obtain ⟨offs, j⟩ := x
  have : (offs.map fun off => (⟨(convMsg c a).time + off, cosineInterpolate (convMsg c a).value (convMsg c b).value (ofTime off /. ofTime (b.time - a.time))⟩ : Msg V)) =
      (offs.map fun off => (⟨a.time + off, cosineInterpolate a.value b.value (ofTime off /. ofTime (b.time - a.time))⟩ : Msg V)).map (convMsg c) := by
    rw [List.map_map]
    refine List.map_congr_left fun off _ => ?_
    dsimp only [Function.comp, convMsg, cosineInterpolate]
    congr 1
    rw [Exact.add_eq, Exact.add_eq, Exact.mul_eq _ (Num.ofNat 1 -. _), Exact.mul_eq _ (Num.ofNat 1 -. _), Exact.mul_eq (c * b.value), Exact.mul_eq b.value]
    ring
  dsimp only [id] at this ⊢
  rw [show (convMsg c b).time = b.time from rfl, show (convMsg c a).time = a.time from rfl] at *
  rw [this]
  exact congrArg (fun x => Except.ok (x, _)) (some_conv _)

theorem hermite_conv (y0 y1 y2 y3 mu : V) : hermiteInterpolate (c * y0) (c * y1) (c * y2) (c * y3) mu = c * hermiteInterpolate y0 y1 y2 y3 mu := by
  unfold hermiteInterpolate
  simp only [Exact.add_eq, Exact.sub_eq, Exact.mul_eq, Exact.div_eq, Exact.neg_eq]
  ring

theorem lsSums_conv (s : UInt64 × V × V × UInt64) (m : Msg V) :
    lsSums (s.1, c * s.2.1, c * s.2.2.1, s.2.2.2) (convMsg c m) = (lsSums s m).map fun s => (s.1, c * s.2.1, c * s.2.2.1, s.2.2.2) := by
  unfold lsSums
  obtain ⟨sx, sy, sxy, sx2⟩ := s
  refine bind_conv (f := id) (by rw [Except.map_id]; rfl) fun t => ?_
  dsimp only [Except.map, convMsg]
  simp only [Exact.add_eq, Exact.mul_eq]
  rw [mul_add, mul_add, mul_left_comm]
  rfl

theorem lsFold_conv (ms : List (Msg V)) : ∀ s : UInt64 × V × V × UInt64,
    (ms.map (convMsg c)).foldlM lsSums (s.1, c * s.2.1, c * s.2.2.1, s.2.2.2) = (ms.foldlM lsSums s).map fun s => (s.1, c * s.2.1, c * s.2.2.1, s.2.2.2) := by
  induction ms with
  | nil => intro s; rfl
  | cons m ms ih =>
    intro s
    rw [List.map_cons, List.foldlM_cons, List.foldlM_cons]
    exact bind_conv (lsSums_conv s m) fun s' => ih s'

theorem leastSquares_conv (ms : List (Msg V)) : leastSquares (ms.map (convMsg c)) = (leastSquares ms).map fun x => (c * x.1, c * x.2) := by
  unfold leastSquares
  have h0 := lsFold_conv (c := c) ms (0, Num.ofNat 0, Num.ofNat 0, 0)
  dsimp only at h0
  rw [show c * Num.ofNat 0 = Num.ofNat 0 by rw [Exact.ofNat_eq, Nat.cast_zero, mul_zero]] at h0
  refine bind_conv h0 fun x => ?_
  obtain ⟨sx, sy, sxy, sx2⟩ := x
  refine bind_conv (f := id) (by rw [Except.map_id, List.length_map]; rfl) fun den => ?_
  dsimp only [id]
  split
  · rcases ms with _ | ⟨a, _ | ⟨b, l⟩⟩
    · rfl
    · rfl
    · change Except.ok _ = Except.ok _
      dsimp only [convMsg]
      simp only [Exact.add_eq, Exact.sub_eq, Exact.mul_eq, Exact.div_eq]
      congr 2 <;> ring
  · rw [List.length_map]
    dsimp only [Except.map]
    simp only [Exact.add_eq, Exact.sub_eq, Exact.mul_eq, Exact.div_eq]
    congr 2 <;> ring

theorem gapSum_conv : ∀ (ms : List (Msg V)) (s : V), gapSum s (ms.map (convMsg c)) = gapSum s ms := by
  intro ms
  induction ms with
  | nil => intro s; rfl
  | cons a ms ih =>
    intro s
    cases ms with
    | nil => rfl
    | cons b ms =>
      rw [List.map_cons, List.map_cons, gapSum, gapSum, ← ih]
      rfl

theorem makeBefore_conv (co : Core V) (p : Str) : makeBefore (convCore c co) p = (makeBefore co p).map (convMsg c) := by
  unfold makeBefore
  refine bind_conv (dataPort_conv co p) fun i => bind_conv (leastSquares_conv i.data) fun x => ?_
  obtain ⟨n, m⟩ := x
  refine bind_conv (dataMsg_conv co p 0) fun m0 => bind_conv (f := id) ?_ fun avg => ?_
  · rw [Except.map_id]
    dsimp only [convInp]
    rw [gapSum_conv, List.length_map]
    rfl
  · dsimp only [Except.map, convMsg, id]
    simp only [Exact.add_eq, Exact.mul_eq]
    congr 2
    ring

theorem lookAt_conv (co : Core V) (p : Str) (frm : Nat) (dt carry : UInt64) (before : Option (Msg V)) :
    lookAt (convCore c co) p frm dt carry (before.map (convMsg c)) = (lookAt co p frm dt carry before).map fun x => (x.1.map (convMsg c), x.2.1, x.2.2.map (convMsg c)) := by
  unfold lookAt
  refine bind_conv (dataMsg_conv co p _) fun b => bind_conv (dataMsg_conv co p _) fun a => ?_
  refine bind_conv (f := id) (by rw [Except.map_id]; rfl) fun x => ?_
  obtain ⟨offs, j⟩ := x
  dsimp only [id]
  split
  · rfl
  · have fin : ∀ (z : Msg V) (bf : Option (Msg V)),
        ((convCore c co).dataMsg p (frm + 2) >>= fun e => Except.ok ((offs.map fun off => (⟨(convMsg c a).time + off,
          hermiteInterpolate (convMsg c z).value (convMsg c a).value (convMsg c b).value e.value (ofTime off /. ofTime ((convMsg c b).time - (convMsg c a).time))⟩ : Msg V)),
          newCarry (convMsg c a).time (convMsg c b).time dt carry j, bf.map (convMsg c)) : Except Err (List (Msg V) × UInt64 × Option (Msg V))) =
        Except.map (fun x => (x.1.map (convMsg c), x.2.1, x.2.2.map (convMsg c))) (co.dataMsg p (frm + 2) >>= fun e => Except.ok ((offs.map fun off => (⟨a.time + off,
          hermiteInterpolate z.value a.value b.value e.value (ofTime off /. ofTime (b.time - a.time))⟩ : Msg V)),
          newCarry a.time b.time dt carry j, bf)) := by
      intro z bf
      refine bind_conv (dataMsg_conv co p _) fun e => ?_
      dsimp only [Except.map]
      rw [List.map_map]
      congr 2
      refine List.map_congr_left fun off _ => ?_
      dsimp only [Function.comp, convMsg]
      rw [hermite_conv]
    cases frm with
    | zero =>
      cases before with
      | some z => exact fin z (some z)
      | none =>
        exact bind_conv (f := fun x : Msg V × Option (Msg V) => (convMsg c x.1, x.2.map (convMsg c))) (bind_conv (makeBefore_conv co p) fun z => rfl) fun x => fin x.1 x.2
    | succ f =>
      refine bind_conv (dataMsg_conv co p f) fun z => ?_
      exact fin z before

theorem procHermRes_conv (co : Core V) (dt carry : UInt64) (before : Option (Msg V)) :
    procHermRes (convCore c co) dt carry (before.map (convMsg c)) = (procHermRes co dt carry before).map (convRes c) := by
  unfold procHermRes
  refine bind_conv (solePort_conv co) fun p => ?_
  cases before with
  | some z => exact bind_conv (lookAt_conv co p 1 dt carry (some z)) fun x => congrArg (fun x => Except.ok (x, _)) (some_conv x.1)
  | none =>
    refine bind_conv (lookAt_conv co p 0 dt carry none) fun x => bind_conv (lookAt_conv co p 1 dt _ _) fun y => ?_
    have := some_conv (c := c) (x.1 ++ y.1)
    rw [List.map_append] at this
    exact congrArg (fun x => Except.ok (x, _)) this

theorem process_conv (hc : 0 < c) (o : Op V) (hu : HasUnit c o.kind) : (convOp c o).process = o.process.map (convRes c) := by
  obtain ⟨co, k⟩ := o
  cases k with
  | input pm last => exact procInput_conv co pm last
  | output pm => exact procOutput_conv co pm
  | filter f v => exact procFilter_conv hc co f v
  | add v =>
    refine procLast_conv co fun m => single_conv m.time ?_ (.add v)
    dsimp only [convMsg]
    rw [Exact.add_eq, Exact.add_eq, mul_add]
  | scale v =>
    refine procLast_conv co fun m => single_conv m.time ?_ (.scale v)
    dsimp only [convMsg]
    rw [Exact.mul_eq, Exact.mul_eq, mul_assoc]
  | constant v => exact procLast_conv co fun m => rfl
  | identity => exact procIdentity_conv co
  | cumSum a => exact procCumSum_conv co a
  | difference b => cases b with
    | true => exact procDifference_conv co
    | false => exact hu.elim
  | movAvg => exact procMovAvg_conv co
  | stdDev => exact procStdDev_conv hu co
  | peak => exact procPeak_conv hc co
  | fir a => exact procFir_conv co a
  | timeShift dt n => exact procLast_conv co fun m => rfl
  | constRes dt ne ini lv => exact procConstRes_conv co dt ne ini lv
  | cosRes dt carry => exact procCosRes_conv co dt carry
  | hermRes dt carry before => exact procHermRes_conv co dt carry before
  | _ => first | exact hu.elim | rfl

end Measures
end Rtbot
