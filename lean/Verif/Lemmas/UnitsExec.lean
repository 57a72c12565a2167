import Verif.Lemmas.UnitsProc
import Verif.Lemmas.Frame

/-! # `executeData`, `executeControl` and whole programs in another unit -/

set_option linter.unusedSectionVars false

namespace Rtbot
namespace Measures
open Spec Mapped
variable {V : Type} [Num V] [Field V] [LinearOrder V] [IsStrictOrderedRing V] [Exact V] {c : V}

/-- The outcome of a call in the new unit. -/
def convStep (c : V) : Res (Op V) (OpMsg V) → Res (Op V) (OpMsg V)
  | .ok x o => .ok (convOut c x) (convOp c o)
  | .err e o => .err e (convOp c o)

theorem readyPorts_conv (co : Core V) : (convCore c co).readyPorts = co.readyPorts := by
  unfold Core.readyPorts
  have h1 : (convCore c co).isData = co.isData := by
    funext p
    exact has_conv (convInp c) co.dataIn p
  rw [h1, data_eq]
  change (if co.toProcess.all co.isData = true then _ else _) = _
  congr 2
  show co.toProcess.filter _ = _
  congr 1
  funext p
  rw [find_conv]
  cases co.dataIn.find? p with
  | none => rfl
  | some i =>
    dsimp only [Option.map_some, convInp]
    rw [List.length_map]

theorem execBase_conv (hc : 0 < c) (o : Op V) (hu : HasUnit c o.kind) : (convOp c o).execBase = convStep c o.execBase := by
  unfold Op.execBase
  rw [show (convOp c o).core = convCore c o.core from rfl, readyPorts_conv]
  cases o.core.readyPorts with
  | error e => rfl
  | ok ready =>
    dsimp only
    split
    · rfl
    · have := process_conv hc (⟨{ o.core with toProcess := ready }, o.kind⟩ : Op V) hu
      rw [show (⟨{ convCore c o.core with toProcess := ready }, (convOp c o).kind⟩ : Op V) = convOp c ⟨{ o.core with toProcess := ready }, o.kind⟩ from rfl, this]
      cases Op.process (⟨{ o.core with toProcess := ready }, o.kind⟩ : Op V) with
      | error e => rfl
      | ok x => rfl

/-! ## Joins -/

theorem joinLatest_conv : ∀ (m : Map (Inp V)) (best : Str × UInt64), joinLatest (onVals (convInp c) m) best = joinLatest m best := by
  intro m
  induction m with
  | nil => intro best; rfl
  | cons e m ih =>
    intro best
    obtain ⟨p, ⟨id, mx, s, data⟩⟩ := e
    unfold onVals at *
    rw [List.map_cons]
    cases data with
    | nil => rfl
    | cons a l => exact ih _

theorem dropOlder_conv (i : Inp V) (t : UInt64) : (convInp c i).dropOlder t = convInp c (i.dropOlder t) := by
  unfold Inp.dropOlder
  have : ∀ (l : List (Msg V)) (s : V), Inp.dropOlder.go (convInp c i) t (l.map (convMsg c)) (c * s) = convInp c (Inp.dropOlder.go i t l s) := by
    intro l
    induction l with
    | nil => intro s; rfl
    | cons m l ih =>
      intro s
      rw [List.map_cons]
      unfold Inp.dropOlder.go
      by_cases h : m.time < t
      · rw [if_pos h, if_pos (show (convMsg c m).time < t from h), ← ih]
        congr 1
        dsimp only [convMsg]
        rw [Exact.sub_eq, Exact.sub_eq, mul_sub]
      · rw [if_neg h, if_neg (show ¬ (convMsg c m).time < t from h)]
        rfl
  exact this i.data i.sum

theorem joinMessages_conv (cm : Map Str) : ∀ (m : Map (Inp V)) (out : OpMsg V),
    joinMessages cm (onVals (convInp c) m) (convOut c out) = (joinMessages cm m out).map (convOut c) := by
  intro m
  induction m with
  | nil => intro out; rfl
  | cons e m ih =>
    intro out
    obtain ⟨p, ⟨id, mx, s, data⟩⟩ := e
    rw [show onVals (convInp c) ((p, (⟨id, mx, s, data⟩ : Inp V)) :: m) = (p, ⟨id, mx, c * s, data.map (convMsg c)⟩) :: onVals (convInp c) m from rfl]
    unfold joinMessages
    cases data with
    | nil => rfl
    | cons a l =>
      dsimp only
      cases cm.find? p with
      | none => rfl
      | some q =>
        change joinMessages cm (onVals (convInp c) m) ((onVals (List.map (convMsg c)) out).emplace q (List.map (convMsg c) [a])) = _
        rw [emplace_conv]
        exact ih _

theorem binaryMessages_conv (hc : 0 < c) (op : BinOp) (hu : HasUnit c (.binary op : Kind V)) (co : Core V) :
    binaryMessages op (convCore c co) = (binaryMessages op co).map (convOut c) := by
  unfold binaryMessages
  refine bind_conv (dataMsg_conv co i2 0) fun m1 => bind_conv (dataMsg_conv co i1 0) fun m0 => ?_
  have : op.eval (convMsg c m0).value (convMsg c m1).value = (op.eval m0.value m1.value).map (c * ·) := by
    dsimp only [convMsg]
    cases op with
    | plus =>
      change some _ = some _
      dsimp only
      rw [Exact.add_eq, Exact.add_eq, mul_add]
    | minus =>
      change some _ = some _
      dsimp only
      rw [Exact.sub_eq, Exact.sub_eq, mul_sub]
    | gtStream =>
      unfold BinOp.eval
      dsimp only
      rw [lt_conv hc]
      cases Num.lt m1.value m0.value <;> rfl
    | ltStream =>
      unfold BinOp.eval
      dsimp only
      rw [lt_conv hc]
      cases Num.lt m0.value m1.value <;> rfl
    | _ => exact hu.elim
  rw [this]
  cases op.eval m0.value m1.value <;> rfl

theorem linearLoop_conv : ∀ (m : Map (Inp V)) (as : List V) (out : Msg V),
    linearLoop (onVals (convInp c) m) as (convMsg c out) = (linearLoop m as out).map (convMsg c) := by
  intro m
  induction m with
  | nil => intro as out; rfl
  | cons e m ih =>
    intro as out
    obtain ⟨p, ⟨id, mx, s, data⟩⟩ := e
    rw [show onVals (convInp c) ((p, (⟨id, mx, s, data⟩ : Inp V)) :: m) = (p, ⟨id, mx, c * s, data.map (convMsg c)⟩) :: onVals (convInp c) m from rfl]
    unfold linearLoop
    cases data with
    | nil => rfl
    | cons b l =>
      cases as with
      | nil => rfl
      | cons a as =>
        refine Eq.trans ?_ (ih as _)
        change linearLoop _ as _ = linearLoop _ as _
        congr 1
        dsimp only [convMsg]
        rw [Exact.add_eq, Exact.add_eq, Exact.mul_eq, Exact.mul_eq]
        congr 1
        ring

theorem joinProcess_conv (hc : 0 < c) (o : Op V) (hu : HasUnit c o.kind) : joinProcess (convOp c o) = (joinProcess o).map (convOut c) := by
  obtain ⟨co, k⟩ := o
  cases k with
  | join cm => exact joinMessages_conv cm co.dataIn []
  | binary op => exact binaryMessages_conv hc op hu co
  | linear as =>
    have := linearLoop_conv (c := c) co.dataIn as (⟨0, Num.ofNat 0⟩ : Msg V)
    rw [show convMsg c (⟨0, Num.ofNat 0⟩ : Msg V) = ⟨0, Num.ofNat 0⟩ from zero_conv] at this
    exact bind_conv this fun m => rfl
  | _ => rfl

theorem popAll_conv : ∀ m : Map (Inp V), popAll (onVals (convInp c) m) = (popAll m).map (onVals (convInp c)) := by
  intro m
  induction m with
  | nil => rfl
  | cons e m ih =>
    obtain ⟨p, i⟩ := e
    rw [show onVals (convInp c) ((p, i) :: m) = (p, convInp c i) :: onVals (convInp c) m from rfl]
    unfold popAll
    rw [popSum_conv]
    cases i.popSum with
    | none => rfl
    | some i' => exact bind_conv (f := onVals (convInp c)) ih fun r => rfl

/-- The removal loop over all ports but one. -/
def dropAll (ref : Str) (t : UInt64) (m : Map (Inp V)) : Map (Inp V) := m.map fun (p, i) => (p, if p = ref then i else i.dropOlder t)

theorem dropAll_conv (ref : Str) (t : UInt64) (m : Map (Inp V)) : dropAll ref t (onVals (convInp c) m) = onVals (convInp c) (dropAll ref t m) := by
  unfold dropAll onVals
  rw [List.map_map, List.map_map]
  refine List.map_congr_left fun e _ => ?_
  dsimp only [Function.comp]
  split
  · rfl
  · rw [dropOlder_conv]

/-- The test whether all fronts have the time. -/
def allReady (t : UInt64) (m : Map (Inp V)) : Bool := m.all fun (_, i) => match i.data with
  | [] => false
  | m :: _ => !(t < m.time)

theorem allReady_conv (t : UInt64) (m : Map (Inp V)) : allReady t (onVals (convInp c) m) = allReady t m := by
  unfold allReady onVals
  rw [List.all_map]
  congr 1
  funext e
  obtain ⟨p, ⟨id, mx, s, data⟩⟩ := e
  cases data <;> rfl

/-- The end of `executeData` of a join. -/
def joinEnd (o : Op V) (dropped : Map (Inp V)) (t : UInt64) : Res (Op V) (OpMsg V) :=
  let o' : Op V := { o with core := { o.core with dataIn := dropped } }
  if allReady t dropped then
    match joinProcess o' with
    | .error e => .err e o'
    | .ok out =>
      match popAll dropped with
      | .error e => .err e o'
      | .ok popped => .ok out { o' with core := { o'.core with dataIn := popped } }
  else .ok [] o'

theorem joinEnd_conv (hc : 0 < c) (o : Op V) (hu : HasUnit c o.kind) (dropped : Map (Inp V)) (t : UInt64) :
    joinEnd (convOp c o) (onVals (convInp c) dropped) t = convStep c (joinEnd o dropped t) := by
  unfold joinEnd
  rw [allReady_conv]
  dsimp only
  split
  · have := joinProcess_conv hc (⟨{ o.core with dataIn := dropped }, o.kind⟩ : Op V) hu
    rw [show (⟨{ (convOp c o).core with dataIn := onVals (convInp c) dropped }, (convOp c o).kind⟩ : Op V) = convOp c ⟨{ o.core with dataIn := dropped }, o.kind⟩ from rfl, this, popAll_conv]
    cases joinProcess (⟨{ o.core with dataIn := dropped }, o.kind⟩ : Op V) with
    | error e => rfl
    | ok out => cases popAll dropped <;> rfl
  · rfl

theorem execJoin_eq (o : Op V) : o.execJoin = match o.core.dataIn with
    | [] => .err (.exc .outOfRange) o
    | (p0, i0) :: _ =>
      match i0.data with
      | [] => .ok [] o
      | m0 :: _ =>
        match joinLatest o.core.dataIn (p0, m0.time) with
        | none => .ok [] o
        | some (ref, t) => joinEnd o (dropAll ref t o.core.dataIn) t := rfl

theorem execJoin_conv (hc : 0 < c) (o : Op V) (hu : HasUnit c o.kind) : (convOp c o).execJoin = convStep c o.execJoin := by
  rw [execJoin_eq, execJoin_eq, show (convOp c o).core.dataIn = onVals (convInp c) o.core.dataIn from rfl]
  cases hd : o.core.dataIn with
  | nil => rfl
  | cons e rest =>
    obtain ⟨p0, ⟨id, mx, s, data⟩⟩ := e
    cases data with
    | nil => rfl
    | cons m0 ms =>
      have h1 := joinLatest_conv (c := c) ((p0, (⟨id, mx, s, m0 :: ms⟩ : Inp V)) :: rest) (p0, m0.time)
      change (match joinLatest (onVals (convInp c) ((p0, (⟨id, mx, s, m0 :: ms⟩ : Inp V)) :: rest)) (p0, m0.time) with
        | none => _
        | some (ref, t) => joinEnd (convOp c o) (dropAll ref t (onVals (convInp c) ((p0, (⟨id, mx, s, m0 :: ms⟩ : Inp V)) :: rest))) t) = _
      rw [h1]
      dsimp only
      cases joinLatest ((p0, (⟨id, mx, s, m0 :: ms⟩ : Inp V)) :: rest) (p0, m0.time) with
      | none => rfl
      | some rt =>
        obtain ⟨ref, t⟩ := rt
        dsimp only
        rw [dropAll_conv]
        exact joinEnd_conv hc o hu _ t

/-! ## AutoRegressive and Variable -/

theorem arLoop_conv : ∀ (n : Nat) (acc : V) (ms : List (Msg V)) (as : List V), arLoop n (c * acc) (ms.map (convMsg c)) as = (arLoop n acc ms as).map (c * ·) := by
  intro n
  induction n with
  | zero => intro acc ms as; rfl
  | succ n ih =>
    intro acc ms as
    cases as with
    | nil => rfl
    | cons a as =>
      cases ms with
      | nil => rfl
      | cons m ms =>
        refine Eq.trans ?_ (ih _ ms as)
        change arLoop n _ _ as = arLoop n _ _ as
        congr 1
        dsimp only [convMsg]
        rw [Exact.add_eq, Exact.add_eq, Exact.mul_eq, Exact.mul_eq]
        ring

theorem execAR_conv (o : Op V) (as : List V) : (convOp c o).execAR as = convStep c (o.execAR as) := by
  obtain ⟨⟨id, dataIn, ctrlIn, outIds, outputs, toProcess⟩, k⟩ := o
  rcases dataIn with _ | ⟨⟨p, ⟨iid, mx, s, data⟩⟩, _ | ⟨e, l⟩⟩
  · rfl
  · rw [show convOp c (⟨⟨id, [(p, ⟨iid, mx, s, data⟩)], ctrlIn, outIds, outputs, toProcess⟩, k⟩ : Op V) =
      ⟨⟨id, [(p, ⟨iid, mx, c * s, data.map (convMsg c)⟩)], onVals (convInp c) ctrlIn, outIds, outputs, toProcess⟩, convKind c k⟩ from rfl]
    unfold Op.execAR
    dsimp only
    rw [List.getLast?_map]
    cases data.getLast? with
    | none => rfl
    | some l =>
      dsimp only [Option.map_some]
      rw [show (convMsg c l).value = c * l.value from rfl, arLoop_conv]
      cases arLoop mx l.value data as with
      | error e => rfl
      | ok v =>
        dsimp only [Except.map]
        rw [← List.map_tail, ← List.map_dropLast]
        cases data.tail with
        | nil => rfl
        | cons a l' =>
          change Res.ok _ _ = Res.ok _ _
          congr 1
          change (⟨⟨id, [(p, ⟨iid, mx, c * s, _⟩)], _, _, _, _⟩, _⟩ : Op V) = ⟨⟨id, [(p, ⟨iid, mx, c * s, List.map (convMsg c) (_ ++ [⟨l.time, v⟩])⟩)], _, _, _, _⟩, _⟩
          rw [List.map_append]
          rfl
  · rfl

theorem varSearch_conv (q : UInt64) : ∀ l : List (Msg V), varSearch q (l.map (convMsg c)) = ((varSearch q l).1.map (convMsg c), (varSearch q l).2.map (c * ·)) := by
  intro l
  induction l with
  | nil => rfl
  | cons a l ih =>
    cases l with
    | nil => rfl
    | cons b l =>
      rw [List.map_cons, List.map_cons, varSearch, varSearch]
      rw [show (convMsg c a).time = a.time from rfl, show (convMsg c b).time = b.time from rfl]
      split
      · rfl
      · split
        · rfl
        · exact ih

theorem execVariable_conv (o : Op V) (v : V) (ini : Bool) : (convOp c o).execVariable (c * v) ini = convStep c (o.execVariable v ini) := by
  obtain ⟨⟨id, dataIn, ctrlIn, outIds, outputs, toProcess⟩, k⟩ := o
  rcases dataIn with _ | ⟨⟨p, ⟨iid, mx, s, data⟩⟩, _ | ⟨e, l⟩⟩
  · rfl
  · rcases ctrlIn with _ | ⟨⟨cp, ⟨cid, cmx, cs, cdata⟩⟩, _ | ⟨e, l⟩⟩
    · rfl
    · cases data with
      | nil => rfl
      | cons a ms =>
        cases cdata with
        | nil => rfl
        | cons q qs =>
          rw [show convOp c (⟨⟨id, [(p, ⟨iid, mx, s, a :: ms⟩)], [(cp, ⟨cid, cmx, cs, q :: qs⟩)], outIds, outputs, toProcess⟩, k⟩ : Op V) =
            ⟨⟨id, [(p, ⟨iid, mx, c * s, convMsg c a :: ms.map (convMsg c)⟩)], [(cp, ⟨cid, cmx, c * cs, convMsg c q :: qs.map (convMsg c)⟩)], outIds, outputs, toProcess⟩, convKind c k⟩ from rfl]
          unfold Op.execVariable
          dsimp only
          rw [show (convMsg c a).time = a.time from rfl, show (convMsg c q).time = q.time from rfl]
          split
          · cases ini <;> rfl
          · split
            · rfl
            · have := varSearch_conv (c := c) q.time (a :: ms)
              rw [List.map_cons] at this
              rw [this]
              rcases varSearch q.time (a :: ms) with ⟨d, _ | x⟩ <;> rfl
    · rfl
  · rfl

/-! ## The law -/

theorem execData_conv (hc : 0 < c) (o : Op V) (hu : HasUnit c o.kind) : (convOp c o).execData = convStep c o.execData := by
  obtain ⟨co, k⟩ := o
  cases k <;> first
    | exact execBase_conv hc _ hu
    | exact execJoin_conv hc _ hu
    | exact execAR_conv _ _
    | exact execVariable_conv _ _ _
    | exact hu.elim

theorem execCtrl_conv (o : Op V) (hu : HasUnit c o.kind) : (convOp c o).execCtrl = convStep c o.execCtrl := by
  obtain ⟨co, k⟩ := o
  cases k <;> first
    | exact hu.elim
    | exact execVariable_conv _ _ _
    | rfl

theorem hasUnit_fresh (k : Kind V) : HasUnit c k.fresh ↔ HasUnit c k := by
  cases k <;> exact Iff.rfl

theorem hasUnit_of_fresh {o o' : Op V} (h : o'.fresh = o.fresh) (hu : HasUnit c o.kind) : HasUnit c o'.kind := by
  rw [← hasUnit_fresh] at hu ⊢
  rw [show o'.kind.fresh = o.kind.fresh from congrArg Op.kind h]
  exact hu

/-- Messages related by the change of unit. -/
def Q (c : V) (m m' : Msg V) : Prop := m' = convMsg c m

/-- Operators related by the change of unit. -/
def T (c : V) (o o' : Op V) : Prop := HasUnit c o.kind ∧ o' = convOp c o

theorem all_msgs {l l' : List (Msg V)} : List.Forall₂ (Q c) l l' ↔ l' = l.map (convMsg c) := by
  constructor
  · intro h
    induction h with
    | nil => rfl
    | cons h1 _ ih => rw [h1, ih]; rfl
  · rintro rfl
    induction l with
    | nil => exact .nil
    | cons a l ih => exact .cons rfl ih

theorem out_rel {x x' : OpMsg V} : OpRel (Q c) x x' ↔ x' = convOut c x := by
  constructor
  · intro h
    induction h with
    | nil => rfl
    | @cons e e' x x' h1 _ ih =>
      obtain ⟨p, l⟩ := e
      obtain ⟨p', l'⟩ := e'
      obtain ⟨rfl, h⟩ := h1
      rw [ih, show l' = _ from all_msgs.1 h]
      rfl
  · rintro rfl
    induction x with
    | nil => exact .nil
    | cons e x ih => exact .cons ⟨rfl, all_msgs.2 rfl⟩ ih

theorem report_rel {x x' : ProgMsg V} : ProgRel (Q c) x x' ↔ x' = convReport c x := by
  constructor
  · intro h
    induction h with
    | nil => rfl
    | @cons e e' x x' h1 _ ih =>
      obtain ⟨p, l⟩ := e
      obtain ⟨p', l'⟩ := e'
      obtain ⟨rfl, h⟩ := h1
      rw [ih, show l' = _ from out_rel.1 h]
      rfl
  · rintro rfl
    induction x with
    | nil => exact .nil
    | cons e x ih => exact .cons ⟨rfl, out_rel.2 rfl⟩ ih

theorem recv_rel {x : Except Err (Op V)} (h : ∀ o, x = .ok o → HasUnit c o.kind) : ExRel (T c) x (x.map (convOp c)) := by
  cases x with
  | error e => exact rfl
  | ok o => exact ⟨h o rfl, rfl⟩

theorem step_rel {x : Res (Op V) (OpMsg V)} (h : HasUnit c x.state.kind) : StepRel (T c) (OpRel (Q c)) x (convStep c x) := by
  cases x with
  | ok out o => exact ⟨out_rel.2 rfl, h, rfl⟩
  | err e o => exact ⟨rfl, h, rfl⟩

theorem law (hc : 0 < c) : Law (Q c) (T c) where
  face := by
    rintro o _ ⟨_, rfl⟩
    exact ⟨⟨rfl, (keys_conv _ _).symm, (keys_conv _ _).symm, rfl, rfl⟩, rfl⟩
  kinds := by
    rintro ⟨co, k⟩ _ ⟨_, rfl⟩
    cases k <;> first | exact .inl ⟨trivial, trivial⟩ | exact .inr ⟨fun h => h.elim, rfl⟩
  mark := by
    rintro o _ l ⟨h, rfl⟩
    exact ⟨h, rfl⟩
  data := by
    rintro o _ m _ p ⟨hu, rfl⟩ _ rfl
    rw [recvData_conv o hu]
    refine recv_rel fun o' h => ?_
    unfold Op.recvData at h
    dsimp only at h
    split at h <;>
    · obtain ⟨co, _, h2⟩ := bind_eq_ok.1 h
      cases h2
      exact hu
  ctrl := by
    rintro o _ m _ p ⟨hu, rfl⟩ rfl
    rw [recvCtrl_conv o hu]
    refine recv_rel fun o' h => ?_
    unfold Op.recvCtrl at h
    dsimp only at h
    split at h <;>
    · obtain ⟨co, _, h2⟩ := bind_eq_ok.1 h
      cases h2
      exact hu
  execData := by
    rintro o _ ⟨hu, rfl⟩ _
    rw [execData_conv hc o hu]
    exact step_rel (hasUnit_of_fresh (execData_fresh o) hu)
  execCtrl := by
    rintro o _ ⟨hu, rfl⟩ _
    rw [execCtrl_conv o hu]
    exact step_rel (hasUnit_of_fresh (execCtrl_fresh o) hu)

end Measures
end Rtbot
