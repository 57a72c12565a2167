import Verif.Lemmas.ReplaceMade
import Verif.Props.Getters
import Verif.Props.Double
import Verif.Props.Copy

/-! # C98: operators with the same meaning can take the place of each other -/

namespace Rtbot
variable {V : Type} [Num V]
open Spec

namespace Replace

theorem receiveDebug_same {D : Nat → Prop} {P Q : Prog V} (h : Ok D P.st Q.st) (ho : P.ops = Q.ops) (he : P.entry = Q.entry) (fuel : Nat) (msgs : OpMsg V) :
    answer (P.receiveDebug fuel msgs) = answer (Q.receiveDebug fuel msgs) ∧ Ok D (P.receiveDebug fuel msgs).state.st (Q.receiveDebug fuel msgs).state.st ∧
      ((P.receiveDebug fuel msgs).state.ops = P.ops ∧ (P.receiveDebug fuel msgs).state.entry = P.entry ∧ (P.receiveDebug fuel msgs).state.filter = P.filter) ∧
      ((Q.receiveDebug fuel msgs).state.ops = Q.ops ∧ (Q.receiveDebug fuel msgs).state.entry = Q.entry ∧ (Q.receiveDebug fuel msgs).state.filter = Q.filter) := by
  unfold Prog.receiveDebug
  rw [ho, he]
  cases Q.ops.find? Q.entry with
  | none => exact ⟨rfl, h, ⟨ho, he, rfl⟩ , rfl, rfl, rfl⟩
  | some a =>
    have := feedAll_mv fuel a msgs _ _ h
    dsimp only
    cases hx : feedAll fuel a msgs P.st <;> cases hy : feedAll fuel a msgs Q.st <;> rw [hx, hy] at this <;> first | exact this.elim | skip
    · exact ⟨congrArg Except.ok this.1, this.2, ⟨rfl, rfl, rfl⟩, rfl, rfl, rfl⟩
    · exact ⟨congrArg Except.error this.1, this.2, ⟨rfl, rfl, rfl⟩, rfl, rfl, rfl⟩

theorem debugRun_same {D : Nat → Prop} (fuel : Nat) (calls : List (OpMsg V)) : ∀ {P Q : Prog V}, Ok D P.st Q.st → P.ops = Q.ops → P.entry = Q.entry →
    answer (debugRun fuel calls P) = answer (debugRun fuel calls Q) := by
  induction calls with
  | nil => intro P Q _ _ _; rfl
  | cons msgs calls ih =>
    intro P Q h ho he
    obtain ⟨h1, h2, h3, h4⟩ := receiveDebug_same h ho he fuel msgs
    unfold debugRun
    cases hx : P.receiveDebug fuel msgs <;> cases hy : Q.receiveDebug fuel msgs <;> rw [hx, hy] at h1 h2 <;> rw [hx] at h3 <;> rw [hy] at h4 <;> cases h1
    · have := ih h2 (h3.1.trans (ho.trans h4.1.symm)) (h3.2.1.trans (he.trans h4.2.1.symm))
      dsimp only [Res.state] at this ⊢
      revert this
      cases debugRun fuel calls _ <;> cases debugRun fuel calls _ <;> intro this <;> cases this <;> rfl
    · rfl

theorem receiveRun_same {D : Nat → Prop} (fuel : Nat) (calls : List (OpMsg V)) : ∀ {P Q : Prog V}, Ok D P.st Q.st → P.ops = Q.ops → P.entry = Q.entry → P.filter = Q.filter →
    answer (receiveRun fuel calls P) = answer (receiveRun fuel calls Q) := by
  induction calls with
  | nil => intro P Q _ _ _ _; rfl
  | cons msgs calls ih =>
    intro P Q h ho he hf
    obtain ⟨h1, h2, h3, h4⟩ := receiveDebug_same h ho he fuel msgs
    unfold receiveRun Prog.receive
    cases hx : P.receiveDebug fuel msgs <;> cases hy : Q.receiveDebug fuel msgs <;> rw [hx, hy] at h1 h2 <;> rw [hx] at h3 <;> rw [hy] at h4 <;> cases h1
    · dsimp only [Res.state] at h2 h3 h4 ⊢
      rw [h3.2.2, h4.2.2, hf]
      have := ih h2 (h3.1.trans (ho.trans h4.1.symm)) (h3.2.1.trans (he.trans h4.2.1.symm)) (by rw [h3.2.2, h4.2.2, hf])
      revert this
      cases receiveRun fuel calls _ <;> cases receiveRun fuel calls _ <;> intro this <;> cases this <;> rfl
    · rfl

/-- Where the heaps differ. -/
theorem ok_of_replaced {s s' : St V} (h : Replaced s.heap s'.heap) (hw : HeapWF s.heap) (hw' : HeapWF s'.heap) :
    Ok (fun a => ∃ o o', s.heap a = some o ∧ s'.heap a = some o' ∧ Interchangeable o o') s s' := by
  refine ⟨fun a => ?_, hw, hw'⟩
  have := h a
  cases h1 : s.heap a <;> cases h2 : s'.heap a <;> rw [h1, h2] at this <;> cases this
  · exact .none
  · rename_i o o' hl
    refine .some ?_
    by_cases hi : Interchangeable o o'
    · exact .inr ⟨⟨o, o', h1, h2, hi⟩, hi⟩
    · refine .inl ⟨?_, hl.resolve_right hi⟩
      rintro ⟨p, p', e1, e2, hp⟩
      rw [h1] at e1
      rw [h2] at e2
      cases e1
      cases e2
      exact hi hp

end Replace

/-- C98: in a program, inside Pipelines and Composites too, any operators can be replaced by interchangeable ones: every sequence of calls gets the same answers, failures included. -/
theorem C98_replace {P Q : Prog V} (h : Replaced P.st.heap Q.st.heap) (hw : HeapWF P.st.heap) (hw' : HeapWF Q.st.heap) (ho : P.ops = Q.ops) (he : P.entry = Q.entry) (fuel : Nat)
    (calls : List (OpMsg V)) :
    answer (debugRun fuel calls P) = answer (debugRun fuel calls Q) ∧ (P.filter = Q.filter → answer (receiveRun fuel calls P) = answer (receiveRun fuel calls Q)) :=
  have hok := Replace.ok_of_replaced h hw hw'
  ⟨Replace.debugRun_same fuel calls hok ho he, Replace.receiveRun_same fuel calls hok ho he⟩

/-- C98 for descriptions: those of some operators are exchanged for others with the same ids that make interchangeable operators; the rest of the description stays. Pipelines are not covered. -/
theorem C98_created {junk : Junk V} {json json' : Str} {j j' e cs : Json V} {xs ys : List (Json V)} {P Q : Prog V}
    (he : Member j b!"entryOperator" e) (he' : Member j' b!"entryOperator" e) (hx : Member j b!"operators" (.arr xs)) (hy : Member j' b!"operators" (.arr ys))
    (hc : Member j b!"connections" cs) (hc' : Member j' b!"connections" cs) (hxy : List.Forall₂ (SameOperator junk) xs ys) (hf : Flat j) (hf' : Flat j')
    (h : Prog.initWith junk json j = .ok P) (h' : Prog.initWith junk json' j' = .ok Q) (fuel : Nat) (calls : List (OpMsg V)) :
    answer (debugRun fuel calls P) = answer (debugRun fuel calls Q) ∧ (P.filter = Q.filter → answer (receiveRun fuel calls P) = answer (receiveRun fuel calls Q)) := by
  have hwf := created_wf h
  have hwf' := created_wf h'
  obtain ⟨entry, os, ops, m, ds, n, a, o, h1, h2, hos, hb, hds, hcc, ha, ho, h⟩ := initWith_ok h
  obtain ⟨entry', os', ops', m', ds', n', a', o', h1', h2', hos', hb', hds', hcc', ha', ho', h'⟩ := initWith_ok h'
  have hp := hf _ hos
  have hp' := hf' _ hos'
  cases hos.unique hx
  cases hos'.unique hy
  cases hds.unique hc
  cases hds'.unique hc'
  obtain ⟨rfl, hal⟩ := Replace.Along.build hxy hp hp' Replace.along_start hb hb'
  have hal := Replace.Along.conns _ hal hcc hcc'
  have hentry : entry' = entry := by
    rcases value_ok h1 with ⟨x, hx, hg⟩ | ⟨_, e⟩
    · rcases value_ok h1' with ⟨y, hy, hg'⟩ | ⟨_, e⟩
      · cases hx.unique he
        cases hy.unique he'
        rw [hg] at hg'
        cases hg'
        rfl
      · exact absurd e h2'
    · exact absurd e h2
  subst hentry
  rw [ha] at ha'
  cases ha'
  have hface := Replace.face_like (Replace.rel_some hal.rel ho ho')
  have hctrl0 : o.core.ctrlIn = [] ↔ o'.core.ctrlIn = [] := by
    have := hface.ctrl
    constructor
    · intro e; rw [e] at this; cases hq : o'.core.ctrlIn with
      | nil => rfl
      | cons x l => rw [hq] at this; cases this
    · intro e; rw [e] at this; cases hq : o.core.ctrlIn with
      | nil => rfl
      | cons x l => rw [hq] at this; cases this
  rcases h with ⟨hctrl, rfl⟩ | ⟨hctrl, rfl⟩ <;> rcases h' with ⟨hctrl', rfl⟩ | ⟨hctrl', rfl⟩
  · exact C98_replace (V := V) hal.rel hwf hwf' rfl rfl fuel calls
  · exact absurd (hctrl0.1 hctrl) hctrl'
  · exact absurd (hctrl0.2 hctrl') hctrl
  · obtain ⟨e1, e2⟩ := Copy.empty_run (V := V) json fuel calls
    obtain ⟨e3, e4⟩ := Copy.empty_run (V := V) json' fuel calls
    exact ⟨e1.trans e3.symm, fun _ => e2.trans e4.symm⟩

/-! ## Which operators are interchangeable -/

/-- C98: TimeShifts by the same product, modulo 2^64. -/
theorem C98_timeShift (id : Str) {dt dt' : UInt64} {k k' : Int} (h : dt * UInt64.ofInt k = dt' * UInt64.ofInt k') :
    Interchangeable (Op.newTimeShift id dt k : Op V) (Op.newTimeShift id dt' k') := by
  refine Replace.interchangeable_sized id (by decide) rfl rfl (fun _ => True) trivial (fun _ _ _ _ _ => trivial) fun c i hd hl _ => ?_
  obtain ⟨ys, x, hx⟩ := Replace.snoc_of_pos (l := i.data) (by omega)
  refine .inl ⟨single ⟨timeShiftTime dt k x.time, x.value⟩, ?_, ?_⟩
  · simp [Op.process, procLast, Replace.sole_eq hd, Replace.last_eq hd hx, bind, Except.bind]
  · simp [Op.process, procLast, Replace.sole_eq hd, Replace.last_eq hd hx, bind, Except.bind, timeShiftTime, h]

section
variable [Field V] [LinearOrder V] [Exact V]

namespace Replace

theorem sum_receive {i i' : Inp V} {m : Msg V} (h : i.sum = (i.data.map (·.value)).sum) (hr : i.receive m = .ok i') : i'.sum = (i'.data.map (·.value)).sum := by
  unfold Inp.receive at hr
  split at hr
  · unfold Inp.popSum at hr
    cases hd : i.data with
    | nil => rw [hd] at hr; cases hr
    | cons x xs =>
      rw [hd] at hr h
      cases hr
      simp only [Inp.push, Exact.add_eq, Exact.sub_eq, h, List.map_cons, List.sum_cons, List.map_append, List.sum_append, List.map_nil, List.sum_nil, add_zero]
      ring
  · split at hr
    · cases hr
    · cases hr
      simp only [Inp.push, Exact.add_eq, h, List.map_append, List.sum_append, List.map_cons, List.map_nil, List.sum_cons, List.sum_nil, add_zero]

theorem fir_same (a : V) : ∀ (ms : List (Msg V)) (acc : V), firLoop acc ms (List.replicate ms.length a) = .ok (acc + (ms.map (·.value)).sum * a) := by
  intro ms
  induction ms with
  | nil => intro acc; simp [firLoop]
  | cons m ms ih =>
    intro acc
    rw [List.length_cons, List.replicate_succ, firLoop, ih, Exact.add_eq, Exact.mul_eq]
    simp only [List.map_cons, List.sum_cons]
    congr 1
    ring

end Replace

/-- C98: the moving average over `n` messages is the filter with `n` coefficients 1/n. -/
theorem C98_average (id : Str) {n : Nat} (hn : 0 < n) : Interchangeable (Op.newMovAvg id n : Op V) (Op.newFir id (List.replicate n (1 / (n : V)))) := by
  have : (Op.newFir id (List.replicate n (1 / (n : V))) : Op V) = ⟨Core.simple id n, .fir (List.replicate n (1 / (n : V)))⟩ := by unfold Op.newFir; rw [List.length_replicate]
  rw [this]
  refine Replace.interchangeable_sized id hn rfl rfl (fun i => i.sum = (i.data.map (·.value)).sum) ?_ (fun i i' m h hr => Replace.sum_receive h hr) fun c i hd hl hs => ?_
  · simp [Inp.new, Exact.ofNat_eq]
  · obtain ⟨ys, x, hx⟩ := Replace.snoc_of_pos (l := i.data) (by omega)
    refine .inl ⟨single ⟨x.time, i.sum / n⟩, ?_, ?_⟩
    · simp [Op.process, procMovAvg, Replace.sole_eq hd, Replace.port_eq hd, Replace.last_eq hd hx, bind, Except.bind, Exact.div_eq, Exact.ofNat_eq, hl]
    · have hf := Replace.fir_same (1 / (n : V)) i.data.reverse (Num.ofNat 0)
      rw [List.length_reverse, hl] at hf
      simp only [Op.process, procFir, Replace.sole_eq hd, Replace.port_eq hd, Replace.last_eq hd hx, bind, Except.bind]
      rw [hf, hs, Exact.ofNat_eq]
      dsimp only
      rw [List.map_reverse, List.sum_reverse, Nat.cast_zero, zero_add, mul_one_div]

/-- C98: multiplying is filtering with one coefficient. -/
theorem C98_scale (id : Str) (a : V) : Interchangeable (Op.newScale id a : Op V) (Op.newFir id [a]) := by
  refine Replace.interchangeable_sized id (by decide) rfl rfl (fun _ => True) trivial (fun _ _ _ _ _ => trivial) fun c i hd hl _ => ?_
  obtain ⟨x, hx⟩ := List.length_eq_one_iff.1 hl
  refine .inl ⟨single ⟨x.time, x.value * a⟩, ?_, ?_⟩
  · simp [Op.process, procLast, Replace.sole_eq hd, Replace.last_eq hd (l := []) hx, bind, Except.bind, Exact.mul_eq]
  · simp [Op.process, procFir, Replace.sole_eq hd, Replace.port_eq hd, Replace.last_eq hd (l := []) hx, bind, Except.bind, hx, firLoop, Exact.mul_eq, Exact.add_eq, Exact.ofNat_eq]

/-- C98: multiplying by 1, adding 0, and the average of one message change nothing. -/
theorem C98_identity (id : Str) : Interchangeable (Op.newIdentity id : Op V) (Op.newScale id 1) ∧ Interchangeable (Op.newIdentity id : Op V) (Op.newAdd id 0) ∧
    Interchangeable (Op.newIdentity id : Op V) (Op.newMovAvg id 1) := by
  have h1 : Interchangeable (Op.newIdentity id : Op V) (Op.newScale id 1) := by
    refine Replace.interchangeable_sized id (by decide) rfl rfl (fun _ => True) trivial (fun _ _ _ _ _ => trivial) fun c i hd hl _ => ?_
    obtain ⟨x, hx⟩ := List.length_eq_one_iff.1 hl
    refine .inl ⟨single x, ?_, ?_⟩
    · simp [Op.process, procIdentity, Replace.sole_eq hd, Replace.first_eq hd hx, bind, Except.bind]
    · simp [Op.process, procLast, Replace.sole_eq hd, Replace.last_eq hd (l := []) hx, bind, Except.bind, Exact.mul_eq]
  refine ⟨h1, ?_, ?_⟩
  · refine Replace.interchangeable_sized id (by decide) rfl rfl (fun _ => True) trivial (fun _ _ _ _ _ => trivial) fun c i hd hl _ => ?_
    obtain ⟨x, hx⟩ := List.length_eq_one_iff.1 hl
    refine .inl ⟨single x, ?_, ?_⟩
    · simp [Op.process, procIdentity, Replace.sole_eq hd, Replace.first_eq hd hx, bind, Except.bind]
    · simp [Op.process, procLast, Replace.sole_eq hd, Replace.last_eq hd (l := []) hx, bind, Except.bind, Exact.add_eq]
  · have h2 := C98_average (V := V) id (n := 1) (by decide)
    have h3 : (List.replicate 1 (1 / ((1 : ℕ) : V)) : List V) = [1] := by simp
    rw [h3] at h2
    exact Replace.inter_trans (Replace.inter_trans h1 (C98_scale id 1)) (Replace.inter_symm h2)

/-- C98: the difference that carries the time of the newer message is the filter with the coefficients 1 and -1. -/
theorem C98_difference [IsStrictOrderedRing V] (id : Str) : Interchangeable (Op.newDifference id true : Op V) (Op.newFir id [1, -1]) := by
  refine Replace.interchangeable_sized id (by decide) rfl rfl (fun _ => True) trivial (fun _ _ _ _ _ => trivial) fun c i hd hl _ => ?_
  obtain ⟨x, y, hx⟩ := List.length_eq_two.1 hl
  have ht : toTimeE (ofTime y.time : V) = .ok y.time := by
    unfold toTimeE
    rw [Exact.toTime_eq y.time (ofTime y.time) (by simp [ofTime, Exact.ofNat_eq]) (by simp [ofTime, Exact.ofNat_eq])]
  refine .inl ⟨single ⟨y.time, y.value - x.value⟩, ?_, ?_⟩
  · simp [Op.process, procDifference, Replace.sole_eq hd, Replace.msg_eq hd (j := 0) (x := x) (by rw [hx]; rfl), Replace.msg_eq hd (j := 1) (x := y) (by rw [hx]; rfl), bind, Except.bind, ht,
      Exact.sub_eq]
  · simp [Op.process, procFir, Replace.sole_eq hd, Replace.port_eq hd, Replace.last_eq hd (l := [x]) hx, bind, Except.bind, hx, firLoop, Exact.mul_eq, Exact.add_eq, Exact.ofNat_eq, sub_eq_add_neg]

/-- C98: the sum and the difference of two streams are linear combinations. -/
theorem C98_linear (id : Str) : (∃ o : Op V, Op.newLinear id [1, 1] = .ok o ∧ Interchangeable (Op.newBinary id .plus) o) ∧
    ∃ o : Op V, Op.newLinear id [1, -1] = .ok o ∧ Interchangeable (Op.newBinary id .minus) o := by
  have key : ∀ (op : BinOp) (x y : V), (∀ a b : V, op.eval a b = some ((Num.ofNat 0 +. a *. x) +. b *. y)) → ∃ o : Op V, Op.newLinear id [x, y] = .ok o ∧ Interchangeable (Op.newBinary id op) o := by
    intro op x y hv
    refine ⟨⟨(Op.newBinary id op : Op V).core, .linear [x, y]⟩, rfl, trivial, trivial, ⟨rfl, rfl, rfl, rfl, rfl⟩, fun as => ?_⟩
    exact Replace.same_linear hv as _ ⟨rfl, _, _, rfl⟩
  refine ⟨key .plus 1 1 fun a b => ?_, key .minus 1 (-1) fun a b => ?_⟩
  · simp [BinOp.eval, Exact.add_eq, Exact.mul_eq, Exact.ofNat_eq]
  · simp [BinOp.eval, Exact.add_eq, Exact.mul_eq, Exact.sub_eq, Exact.ofNat_eq, sub_eq_add_neg]

end

/-! ## Cases -/

namespace Replace

def rIn : Json ℚ := .obj [(b!"id", .str b!"in"), (b!"numPorts", .uint 1), (b!"type", .str b!"Input")]
def rAvg : Json ℚ := .obj [(b!"id", .str b!"x"), (b!"n", .uint 2), (b!"type", .str b!"MovingAverage")]
def rFir : Json ℚ := .obj [(b!"coeff", .arr [.float (1 / 2), .float (1 / 2)]), (b!"id", .str b!"x"), (b!"type", .str b!"FiniteImpulseResponse")]
def rSum : Json ℚ := .obj [(b!"id", .str b!"sum"), (b!"type", .str b!"CumulativeSum")]

/-- An Input, the given operator, a CumulativeSum. -/
def rDescr (x : Json ℚ) : Json ℚ := .obj [(b!"connections", .arr [.obj [(b!"from", .str b!"in"), (b!"to", .str b!"x")], .obj [(b!"from", .str b!"x"), (b!"to", .str b!"sum")]]),
  (b!"entryOperator", .str b!"in"), (b!"operators", .arr [rIn, x, rSum])]

/-- What a description gives for two calls, the second with a message that is out of order. -/
def replies (j : Json ℚ) : Option (Except Err (List (ProgMsg ℚ))) :=
  match Prog.initWith (fun _ => (0, 0)) [] j with
  | .error _ => none
  | .ok P => some (answer (debugRun 9 [[(i1, [⟨1, 5⟩, ⟨2, 6⟩])], [(i1, [⟨2, 7⟩, ⟨4, 8⟩])]] P))

theorem member_str {x : Json ℚ} {k t u : Str} (h : Member x k (.str t)) (h' : Member x k (.str u)) : u = t := by
  have := Spec.Member.unique h h'
  cases this
  rfl

theorem same_id {x y : Json ℚ} {k : Str} (h : HasId x k) (h' : HasId y k) (l : Str) : HasId x l ↔ HasId y l :=
  ⟨fun e => member_str h e ▸ h', fun e => member_str h' e ▸ h⟩

theorem avg_fir (junk : Junk ℚ) : SameOperator junk rAvg rFir := by
  refine ⟨same_id (k := b!"x") ⟨_, rfl, rfl⟩ ⟨_, rfl, rfl⟩, fun t u a o o' ht hu h h' => .inr ?_⟩
  cases member_str (x := rAvg) ⟨_, rfl, rfl⟩ ht
  cases member_str (x := rFir) ⟨_, rfl, rfl⟩ hu
  have e : some (.ok (Op.newMovAvg b!"x" 2 : Op ℚ)) = some (Except.ok o : Except Err (Op ℚ)) := h
  have e' : some (.ok (Op.newFir b!"x" [1 / 2, 1 / 2] : Op ℚ)) = some (Except.ok o' : Except Err (Op ℚ)) := h'
  cases e
  cases e'
  have := C98_average (V := ℚ) b!"x" (n := 2) (by decide)
  exact this

theorem same_self (junk : Junk ℚ) (x : Json ℚ) : SameOperator junk x x := by
  refine ⟨fun _ => Iff.rfl, fun t u a o o' ht hu h h' => .inl ?_⟩
  cases member_str ht hu
  rw [h] at h'
  cases h'
  rfl

theorem descr_flat {x : Json ℚ} {t : Str} (h : HasType x t) (ht : b!"Pipeline" ≠ t) : Flat (rDescr x) := by
  intro os hos y hy hp
  cases hos.unique (⟨_, rfl, rfl⟩ : Member (rDescr x) b!"operators" (.arr [rIn, x, rSum]))
  simp only [Json.items, List.mem_cons, List.not_mem_nil, or_false] at hy
  rcases hy with rfl | rfl | rfl
  · exact absurd (member_str (x := rIn) ⟨_, rfl, rfl⟩ hp) (by decide)
  · exact ht (member_str h hp)
  · exact absurd (member_str (x := rSum) ⟨_, rfl, rfl⟩ hp) (by decide)

end Replace

/-- The hypotheses of `C98_created` hold for a moving average and a filter between two operators, for all calls. -/
example (json json' : Str) (junk : Junk ℚ) {P Q : Prog ℚ} (h : Prog.initWith junk json (Replace.rDescr Replace.rAvg) = .ok P)
    (h' : Prog.initWith junk json' (Replace.rDescr Replace.rFir) = .ok Q) (fuel : Nat) (calls : List (OpMsg ℚ)) : answer (debugRun fuel calls P) = answer (debugRun fuel calls Q) :=
  (C98_created ⟨_, rfl, rfl⟩ ⟨_, rfl, rfl⟩ ⟨_, rfl, rfl⟩ ⟨_, rfl, rfl⟩ ⟨_, rfl, rfl⟩ ⟨_, rfl, rfl⟩
    (.cons (Replace.same_self junk _) (.cons (Replace.avg_fir junk) (.cons (Replace.same_self junk _) .nil)))
    (Replace.descr_flat (t := b!"MovingAverage") ⟨_, rfl, rfl⟩ (by decide)) (Replace.descr_flat (t := b!"FiniteImpulseResponse") ⟨_, rfl, rfl⟩ (by decide)) h h' fuel calls).1

/-- Both descriptions are accepted; the answers. -/
example : Replace.replies (Replace.rDescr Replace.rAvg) = some (.ok [
      [(b!"in", [(o1, [⟨1, 5⟩, ⟨2, 6⟩])]), (b!"sum", [(o1, [⟨2, 11 / 2⟩])]), (b!"x", [(o1, [⟨2, 11 / 2⟩])])],
      [(b!"in", [(o1, [⟨4, 8⟩])]), (b!"sum", [(o1, [⟨4, 25 / 2⟩])]), (b!"x", [(o1, [⟨4, 7⟩])])]]) ∧
    Replace.replies (Replace.rDescr Replace.rFir) = Replace.replies (Replace.rDescr Replace.rAvg) := by
  constructor <;> decide +kernel

/-- C98: the difference that carries the time of the older message is not interchangeable with the filter. -/
theorem C98_older_differs : ¬ Interchangeable (Op.newDifference [] false : Op ℚ) (Op.newFir [] [1, -1]) := by
  intro h
  have := h.answers [.recvData i1 ⟨1, 5⟩, .execData, .recvData i1 ⟨2, 7⟩, .execData]
  revert this
  decide +kernel

/-- C98 needs exact arithmetic: with doubles the moving average of 2^53, 1, 0 over two messages ends with 0, the filter with the coefficients 1/2 with 0.5. -/
theorem C98_double_differs : letI := plainPlatform
    bitsOf (feedOp (Op.newMovAvg [] 2 : Op F64) i1 [⟨1, Num.ofNat (2 ^ 53)⟩, ⟨2, Num.ofNat 1⟩, ⟨3, Num.ofNat 0⟩]) = some [(2, 0x4330000000000000), (3, 0)] ∧
    bitsOf (feedOp (Op.newFir [] [Num.half, Num.half] : Op F64) i1 [⟨1, Num.ofNat (2 ^ 53)⟩, ⟨2, Num.ofNat 1⟩, ⟨3, Num.ofNat 0⟩]) = some [(2, 0x4330000000000000), (3, 0x3FE0000000000000)] := by
  decide +kernel

end Rtbot
