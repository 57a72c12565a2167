import Verif.Spec.Nearby
import Verif.Lemmas.Mapped
import Verif.Lemmas.Numeric

/-! # Operators on corresponding times -/

set_option linter.unusedSectionVars false

namespace Rtbot
namespace Nearby
open Spec Mapped
variable {V : Type} [Num V] [Field V] [LinearOrder V] [Exact V] [IsStrictOrderedRing V] {R : UInt64 → UInt64 → Prop} {W : V → V → Prop}

/-- Times that correspond in order, and a relation of values that every value has to itself. -/
structure Laws (R : UInt64 → UInt64 → Prop) (W : V → V → Prop) : Prop extends Relabels R where
  refl : ∀ v, W v v

/-- Input buffers with related messages. -/
structure ValInp (R : UInt64 → UInt64 → Prop) (W : V → V → Prop) (i i' : Inp V) : Prop where
  id : i.id = i'.id
  max : i.max = i'.max
  data : List.Forall₂ (ValMsg R W) i.data i'.data

/-- Base class members with related messages. -/
structure ValCore (R : UInt64 → UInt64 → Prop) (W : V → V → Prop) (c c' : Core V) : Prop where
  id : c.id = c'.id
  data : SameMap (ValInp R W) c.dataIn c'.dataIn
  ctrl : SameMap (ValInp R W) c.ctrlIn c'.ctrlIn
  outIds : c.outIds = c'.outIds
  outputs : c.outputs = c'.outputs
  toProcess : c.toProcess = c'.toProcess

/-- The weighted sum. -/
def dot (xs as : List V) : V := (List.zipWith (· * ·) xs as).sum

/-- The operators whose results are related when what they get is. -/
def FineKind (R : UInt64 → UInt64 → Prop) (W : V → V → Prop) : Kind V → Prop
  | .input _ _ | .output _ | .collector | .join _ | .constant _ | .identity | .count _ | .variable _ _ | .composite _ _ | .pipeline _ _ _ => True
  | .add v => ∀ x x', W x x' → W (x + v) (x' + v)
  | .scale v => ∀ x x', W x x' → W (x * v) (x' * v)
  | .cumSum _ => ∀ x x' y y', W x x' → W y y' → W (x + y) (x' + y')
  | .binary op => ∀ a a' b b', W a a' → W b b' → ∃ v v', op.eval a b = some v ∧ op.eval a' b' = some v' ∧ W v v'
  | .movAvg => ∀ xs xs', List.Forall₂ W xs xs' → W (xs.sum / xs.length) (xs'.sum / xs'.length)
  | .linear as | .fir as => ∀ xs xs', List.Forall₂ W xs xs' → W (dot xs as) (dot xs' as)
  | .autoReg as => ∀ x x' xs xs', W x x' → List.Forall₂ W xs xs' → W (x + dot xs as) (x' + dot xs' as)
  | .timeShift _ _ | .constRes _ _ _ _ => ∀ t t', R t t' ↔ t = t'
  | _ => False

/-- Related subclass members. -/
inductive ValKind (R : UInt64 → UInt64 → Prop) (W : V → V → Prop) : Kind V → Kind V → Prop
  | input (pm : Map Str) {last last' : Map (Msg V)} (h : SameMap (ValMsg R W) last last') : ValKind R W (.input pm last) (.input pm last')
  | cumSum (hW : ∀ x x' y y', W x x' → W y y' → W (x + y) (x' + y')) {a a' : V} (h : W a a') : ValKind R W (.cumSum a) (.cumSum a')
  | constRes (hR : ∀ t t', R t t' ↔ t = t') (dt next : UInt64) (initiated : Bool) {v v' : V} (h : W v v') : ValKind R W (.constRes dt next initiated v) (.constRes dt next initiated v')
  | other {k : Kind V} (hk : FineKind R W k) (hi : ∀ pm last, k ≠ .input pm last) : ValKind R W k k

/-- Related operators. -/
structure ValOp (R : UInt64 → UInt64 → Prop) (W : V → V → Prop) (o o' : Op V) : Prop where
  core : ValCore R W o.core o'.core
  kind : ValKind R W o.kind o'.kind

theorem bind_rel {α β : Type} {A : α → α → Prop} {B : β → β → Prop} {x y : Except Err α} {f g : α → Except Err β} (h : ExRel A x y) (hf : ∀ a b, A a b → ExRel B (f a) (g b)) :
    ExRel B (x >>= f) (y >>= g) := by
  cases x <;> cases y <;> first | exact h.elim | skip
  · exact h
  · exact hf _ _ h

theorem eq_rel {α : Type} {A : α → α → Prop} (h : ∀ a, A a a) (x : Except Err α) : ExRel A x x := by
  cases x
  · exact rfl
  · exact h _

theorem eq_iff (hR : Relabels R) {a a' b b' : UInt64} (h : R a a') (h' : R b b') : a = b ↔ a' = b' := by
  have h1 := hR.lt h h'
  have h2 := hR.lt h' h
  rw [UInt64.lt_iff_toNat_lt, UInt64.lt_iff_toNat_lt] at h1 h2
  rw [← UInt64.toNat_inj, ← UInt64.toNat_inj]
  omega

theorem inps_find {m m' : Map (Inp V)} (h : SameMap (ValInp R W) m m') (k : Str) : Option.Rel (ValInp R W) (m.find? k) (m'.find? k) := MapRel.find h k

theorem sole_eq {m m' : Core V} (h : ValCore R W m m') : m.solePort = m'.solePort := by
  unfold Core.solePort
  have := h.data
  revert this
  generalize m.dataIn = x, m'.dataIn = y
  intro this
  rcases this with _ | ⟨h1, _ | ⟨h2, h3⟩⟩
  · rfl
  · rename_i a b
    obtain ⟨k, i⟩ := a
    obtain ⟨k', i'⟩ := b
    obtain ⟨rfl, _⟩ := h1
    rfl
  · rfl

theorem sole_rel {m m' : Core V} (h : ValCore R W m m') : ExRel Eq m.solePort m'.solePort := by
  rw [sole_eq h]
  exact eq_rel (fun _ => rfl) _

theorem len {l l' : List (Msg V)} (h : List.Forall₂ (ValMsg R W) l l') : l.length = l'.length := h.length_eq

theorem nil_iff {α : Type} {A : α → α → Prop} {l l' : List α} (h : List.Forall₂ A l l') : l = [] ↔ l' = [] := by
  cases h <;> simp

theorem get_rel {α : Type} {A : α → α → Prop} {l l' : List α} (h : List.Forall₂ A l l') : ∀ n : Nat, Option.Rel A l[n]? l'[n]? := by
  induction h with
  | nil => intro n; exact .none
  | cons h1 _ ih =>
    intro n
    cases n with
    | zero => exact .some h1
    | succ n => exact ih n

theorem zero_rel (hR : Laws R W) : ValMsg R W (Msg.zero : Msg V) Msg.zero := ⟨hR.zero, hR.refl _⟩

theorem dataMsg_rel (hR : Laws R W) {c c' : Core V} (h : ValCore R W c c') (p : Str) (n : Nat) : ExRel (ValMsg R W) (c.dataMsg p n) (c'.dataMsg p n) := by
  unfold Core.dataMsg
  have h1 := inps_find h.data p
  cases e1 : c.dataIn.find? p <;> cases e2 : c'.dataIn.find? p <;> rw [e1, e2] at h1 <;> cases h1
  · exact rfl
  · rename_i i i' hi
    dsimp only
    by_cases h0 : i.data = []
    · rw [if_pos h0, if_pos ((nil_iff hi.data).1 h0)]
      exact zero_rel hR
    · rw [if_neg h0, if_neg fun e => h0 ((nil_iff hi.data).2 e)]
      have := get_rel hi.data n
      cases e3 : i.data[n]? <;> cases e4 : i'.data[n]? <;> rw [e3, e4] at this <;> cases this
      · exact rfl
      · assumption

theorem last_rel {α : Type} {A : α → α → Prop} {l l' : List α} (h : List.Forall₂ A l l') : Option.Rel A l.getLast? l'.getLast? := by
  rw [List.getLast?_eq_getElem?, List.getLast?_eq_getElem?, h.length_eq]
  exact get_rel h _

theorem dataLast_rel (hR : Laws R W) {c c' : Core V} (h : ValCore R W c c') (p : Str) : ExRel (ValMsg R W) (c.dataLast p) (c'.dataLast p) := by
  unfold Core.dataLast
  have h1 := inps_find h.data p
  cases e1 : c.dataIn.find? p <;> cases e2 : c'.dataIn.find? p <;> rw [e1, e2] at h1 <;> cases h1
  · exact rfl
  · rename_i i i' hi
    dsimp only
    have := last_rel hi.data
    cases e3 : i.data.getLast? <;> cases e4 : i'.data.getLast? <;> rw [e3, e4] at this <;> cases this
    · exact zero_rel hR
    · assumption

theorem dataFirst_rel (hR : Laws R W) {c c' : Core V} (h : ValCore R W c c') (p : Str) : ExRel (ValMsg R W) (c.dataFirst p) (c'.dataFirst p) := by
  unfold Core.dataFirst
  have h1 := inps_find h.data p
  cases e1 : c.dataIn.find? p <;> cases e2 : c'.dataIn.find? p <;> rw [e1, e2] at h1 <;> cases h1
  · exact rfl
  · rename_i i i' hi
    dsimp only
    have := hi.data
    revert this
    generalize i.data = x, i'.data = y
    intro this
    cases this with
    | nil => exact zero_rel hR
    | cons h1 _ => exact h1

theorem dataPort_rel {c c' : Core V} (h : ValCore R W c c') (p : Str) : ExRel (ValInp R W) (c.dataPort p) (c'.dataPort p) := by
  unfold Core.dataPort
  have h1 := inps_find h.data p
  cases e1 : c.dataIn.find? p <;> cases e2 : c'.dataIn.find? p <;> rw [e1, e2] at h1 <;> cases h1
  · exact rfl
  · assumption

theorem resolveData_eq {c c' : Core V} (h : ValCore R W c c') (p : Str) : c.resolveData p = c'.resolveData p := by
  unfold Core.resolveData
  split
  · have := h.data
    revert this
    generalize c.dataIn = x, c'.dataIn = y
    intro this
    rcases this with _ | ⟨h1, _ | ⟨h2, h3⟩⟩
    · rfl
    · exact h1.1
    · rfl
  · rfl

theorem resolveCtrl_eq {c c' : Core V} (h : ValCore R W c c') (p : Str) : c.resolveCtrl p = c'.resolveCtrl p := by
  unfold Core.resolveCtrl
  split
  · have := h.ctrl
    revert this
    generalize c.ctrlIn = x, c'.ctrlIn = y
    intro this
    rcases this with _ | ⟨h1, _ | ⟨h2, h3⟩⟩
    · rfl
    · exact h1.1
    · rfl
  · rfl

theorem push_rel {i i' : Inp V} (h : ValInp R W i i') {m m' : Msg V} (hm : ValMsg R W m m') : ValInp R W (i.push m) (i'.push m') :=
  ⟨h.id, h.max, List.rel_append h.data (.cons hm .nil)⟩

theorem popSum_rel {i i' : Inp V} (h : ValInp R W i i') : Option.Rel (ValInp R W) i.popSum i'.popSum := by
  obtain ⟨id, mx, s, d⟩ := i
  obtain ⟨id', mx', s', d'⟩ := i'
  obtain ⟨h1, h2, h4⟩ := h
  dsimp only at h1 h2 h4
  subst h1 h2
  cases h4 with
  | nil => exact .none
  | cons hm hl => exact .some ⟨rfl, rfl, hl⟩

theorem receive_rel {i i' : Inp V} (h : ValInp R W i i') {m m' : Msg V} (hm : ValMsg R W m m') : ExRel (ValInp R W) (i.receive m) (i'.receive m') := by
  unfold Inp.receive
  rw [← h.max, ← len h.data]
  split
  · have := popSum_rel h
    cases e1 : i.popSum <;> cases e2 : i'.popSum <;> rw [e1, e2] at this <;> cases this
    · exact rfl
    · rename_i hi
      exact push_rel hi hm
  · split
    · exact rfl
    · exact push_rel h hm

theorem receiveDataBase_rel {c c' : Core V} (h : ValCore R W c c') {m m' : Msg V} (hm : ValMsg R W m m') (p : Str) :
    ExRel (ValCore R W) (c.receiveDataBase m p) (c'.receiveDataBase m' p) := by
  unfold Core.receiveDataBase
  rw [resolveData_eq h]
  dsimp only
  have h1 := inps_find h.data (c'.resolveData p)
  cases e1 : c.dataIn.find? (c'.resolveData p) <;> cases e2 : c'.dataIn.find? (c'.resolveData p) <;> rw [e1, e2] at h1 <;> cases h1
  · exact rfl
  · rename_i hi
    exact bind_rel (receive_rel hi hm) fun i i' hi => ⟨h.id, MapRel.put h.data _ hi, h.ctrl, h.outIds, h.outputs, by rw [h.toProcess]⟩

theorem receiveCtrlBase_rel {c c' : Core V} (h : ValCore R W c c') {m m' : Msg V} (hm : ValMsg R W m m') (p : Str) :
    ExRel (ValCore R W) (c.receiveCtrlBase m p) (c'.receiveCtrlBase m' p) := by
  unfold Core.receiveCtrlBase
  rw [resolveCtrl_eq h]
  dsimp only
  have h1 := inps_find h.ctrl (c'.resolveCtrl p)
  cases e1 : c.ctrlIn.find? (c'.resolveCtrl p) <;> cases e2 : c'.ctrlIn.find? (c'.resolveCtrl p) <;> rw [e1, e2] at h1 <;> cases h1
  · exact rfl
  · rename_i hi
    exact bind_rel (receive_rel hi hm) fun i i' hi => ⟨h.id, h.data, MapRel.put h.ctrl _ hi, h.outIds, h.outputs, h.toProcess⟩

theorem receiveDataJoin_rel {c c' : Core V} (h : ValCore R W c c') {m m' : Msg V} (hm : ValMsg R W m m') (p : Str) :
    ExRel (ValCore R W) (c.receiveDataJoin m p) (c'.receiveDataJoin m' p) := by
  unfold Core.receiveDataJoin
  split
  · exact rfl
  · have h1 := inps_find h.data p
    cases e1 : c.dataIn.find? p <;> cases e2 : c'.dataIn.find? p <;> rw [e1, e2] at h1 <;> cases h1
    · exact rfl
    · rename_i hi
      exact ⟨h.id, MapRel.put h.data _ (push_rel hi hm), h.ctrl, h.outIds, h.outputs, h.toProcess⟩

theorem receiveDataDemux_rel {c c' : Core V} (h : ValCore R W c c') {m m' : Msg V} (hm : ValMsg R W m m') (p : Str) :
    ExRel (ValCore R W) (c.receiveDataDemux m p) (c'.receiveDataDemux m' p) := by
  unfold Core.receiveDataDemux
  rw [resolveData_eq h]
  dsimp only
  have h1 := inps_find h.data (c'.resolveData p)
  cases e1 : c.dataIn.find? (c'.resolveData p) <;> cases e2 : c'.dataIn.find? (c'.resolveData p) <;> rw [e1, e2] at h1 <;> cases h1
  · exact rfl
  · rename_i hi
    exact ⟨h.id, MapRel.put h.data _ (push_rel hi hm), h.ctrl, h.outIds, h.outputs, h.toProcess⟩

theorem receiveCtrlDemux_rel {c c' : Core V} (h : ValCore R W c c') {m m' : Msg V} (hm : ValMsg R W m m') (p : Str) :
    ExRel (ValCore R W) (c.receiveCtrlDemux m p) (c'.receiveCtrlDemux m' p) := by
  unfold Core.receiveCtrlDemux
  rw [resolveCtrl_eq h]
  dsimp only
  have h1 := inps_find h.ctrl (c'.resolveCtrl p)
  cases e1 : c.ctrlIn.find? (c'.resolveCtrl p) <;> cases e2 : c'.ctrlIn.find? (c'.resolveCtrl p) <;> rw [e1, e2] at h1 <;> cases h1
  · exact rfl
  · rename_i hi
    exact ⟨h.id, h.data, MapRel.put h.ctrl _ (push_rel hi hm), h.outIds, h.outputs, h.toProcess⟩

theorem receiveDataAR_rel (hR : Laws R W) {c c' : Core V} (h : ValCore R W c c') {m m' : Msg V} (hm : ValMsg R W m m') (p : Str) :
    ExRel (ValCore R W) (c.receiveDataAR m p) (c'.receiveDataAR m' p) := by
  unfold Core.receiveDataAR
  rw [resolveData_eq h]
  dsimp only
  have h1 := inps_find h.data (c'.resolveData p)
  cases e1 : c.dataIn.find? (c'.resolveData p) <;> cases e2 : c'.dataIn.find? (c'.resolveData p) <;> rw [e1, e2] at h1 <;> cases h1
  · exact rfl
  · rename_i i i' hi
    dsimp only
    rw [← hi.max, ← len hi.data]
    split
    · exact rfl
    · refine ⟨h.id, MapRel.put h.data _ ⟨hi.id, by rfl, ?_⟩, h.ctrl, h.outIds, h.outputs, h.toProcess⟩
      refine List.rel_append (List.rel_append hi.data ?_) (.cons hm .nil)
      induction i.max - i.data.length with
      | zero => exact .nil
      | succ n ih => exact .cons (zero_rel hR) ih

theorem recvData_rel (hR : Laws R W) {o o' : Op V} (h : ValOp R W o o') {m m' : Msg V} (hm : ValMsg R W m m') (p : Str) :
    ExRel (ValOp R W) (o.recvData m p) (o'.recvData m' p) := by
  obtain ⟨c, k⟩ := o
  obtain ⟨c', k'⟩ := o'
  obtain ⟨hc, hk⟩ := h
  dsimp only at hc hk
  have hk0 := hk
  unfold Op.recvData
  cases hk with
  | input | cumSum | constRes => exact bind_rel (receiveDataBase_rel hc hm p) fun _ _ h => ⟨h, hk0⟩
  | other ho hi =>
    cases k <;> first
      | exact bind_rel (receiveDataBase_rel hc hm p) fun _ _ h => ⟨h, hk0⟩
      | exact bind_rel (receiveDataJoin_rel hc hm p) fun _ _ h => ⟨h, hk0⟩
      | exact bind_rel (receiveDataDemux_rel hc hm p) fun _ _ h => ⟨h, hk0⟩
      | exact bind_rel (receiveDataAR_rel hR hc hm p) fun _ _ h => ⟨h, hk0⟩

theorem recvCtrl_rel {o o' : Op V} (h : ValOp R W o o') {m m' : Msg V} (hm : ValMsg R W m m') (p : Str) :
    ExRel (ValOp R W) (o.recvCtrl m p) (o'.recvCtrl m' p) := by
  obtain ⟨c, k⟩ := o
  obtain ⟨c', k'⟩ := o'
  obtain ⟨hc, hk⟩ := h
  dsimp only at hc hk
  have hk0 := hk
  unfold Op.recvCtrl
  cases hk with
  | input | cumSum | constRes => exact bind_rel (receiveCtrlBase_rel hc hm p) fun _ _ h => ⟨h, hk0⟩
  | other ho hi =>
    cases k <;> first
      | exact bind_rel (receiveCtrlBase_rel hc hm p) fun _ _ h => ⟨h, hk0⟩
      | exact bind_rel (receiveCtrlDemux_rel hc hm p) fun _ _ h => ⟨h, hk0⟩

end Nearby
end Rtbot
