import Verif.Lemmas.Timing
import Verif.Lemmas.Quiet
import Verif.Lemmas.LocalEnd

/-! # `processData` on corresponding times -/

set_option linter.unusedSectionVars false

namespace Rtbot
namespace Timing
open Spec Mapped
variable {V : Type} [Num V] {R : UInt64 → UInt64 → Prop}

/-- Corresponding results of `processData`. -/
def TimedRes (R : UInt64 → UInt64 → Prop) (x y : OpMsg V × Kind V) : Prop := TimedOut R x.1 y.1 ∧ TimedKind R x.2 y.2

theorem erase_rel {α : Type} {A : α → α → Prop} {m m' : Map α} (h : SameMap A m m') (k : Str) : SameMap A (m.erase k) (m'.erase k) := by
  unfold Map.erase
  induction h with
  | nil => exact .nil
  | @cons e e' l l' h1 h2 ih =>
    rw [List.filter_cons, List.filter_cons, ← h1.1]
    split
    · exact .cons h1 ih
    · exact ih

theorem single_rel {t t' : UInt64} (h : R t t') (v v' : V) : TimedOut R (single ⟨t, v⟩) (single ⟨t', v'⟩) := .cons ⟨rfl, .cons h .nil⟩ .nil

theorem single_rel' {m m' : Msg V} (h : TimedMsg R m m') : TimedOut R (single m) (single m') := .cons ⟨rfl, .cons h .nil⟩ .nil

theorem foldlM_rel {α β : Type} {B : β → β → Prop} {f g : β → α → Except Err β} (h : ∀ b b' a, B b b' → ExRel B (f b a) (g b' a)) (l : List α) :
    ∀ b b', B b b' → ExRel B (l.foldlM f b) (l.foldlM g b') := by
  induction l with
  | nil => intro b b' hb; exact hb
  | cons a l ih =>
    intro b b' hb
    rw [List.foldlM_cons, List.foldlM_cons]
    exact bind_rel (h b b' a hb) fun b b' hb => ih b b' hb

theorem procInput_rel (hR : Relabels R) {c c' : Core V} (h : TimedCore R c c') (pm : Map Str) {last last' : Map (Msg V)} (hl : SameMap (TimedMsg R) last last') :
    ExRel (TimedRes R) (procInput c pm last) (procInput c' pm last') := by
  unfold procInput
  rw [← h.toProcess]
  refine bind_rel (A := fun x y : OpMsg V × Map (Msg V) => TimedOut R x.1 y.1 ∧ SameMap (TimedMsg R) x.2 y.2) (foldlM_rel ?_ c.toProcess _ _ ⟨.nil, hl⟩) fun x y hxy => ⟨hxy.1, .input pm hxy.2⟩
  rintro ⟨out, last⟩ ⟨out', last'⟩ p ⟨h1, h2⟩
  dsimp only at h1 h2
  unfold inputStep
  refine bind_rel (dataMsg_rel hR h p 0) fun m m' hm => ?_
  dsimp only
  have hs : ExRel (fun x y : OpMsg V × Map (Msg V) => TimedOut R x.1 y.1 ∧ SameMap (TimedMsg R) x.2 y.2)
      (match pm.find? p with
      | none => undefined .endDeref
      | some q => .ok (out.emplace q [m], (last.erase p).emplace p m))
      (match pm.find? p with
      | none => undefined .endDeref
      | some q => .ok (out'.emplace q [m'], (last'.erase p).emplace p m')) := by
    cases pm.find? p with
    | none => exact rfl
    | some q => exact ⟨MapRel.emplace h1 q (.cons hm .nil), MapRel.emplace (erase_rel h2 p) p hm⟩
  have h3 := MapRel.find h2 p
  cases e1 : last.find? p <;> cases e2 : last'.find? p <;> rw [e1, e2] at h3 <;> cases h3
  · exact hs
  · rename_i l l' hll
    dsimp only
    by_cases ht : l.time < m.time
    · rw [if_pos ht, if_pos ((hR.lt hll hm).1 ht)]
      exact hs
    · rw [if_neg ht, if_neg fun h => ht ((hR.lt hll hm).2 h)]
      exact ⟨h1, h2⟩

theorem procOutput_rel (hR : Relabels R) {c c' : Core V} (h : TimedCore R c c') (pm : Map Str) : ExRel (TimedRes R) (procOutput c pm) (procOutput c' pm) := by
  unfold procOutput
  rw [← h.toProcess]
  refine bind_rel (A := TimedOut R) (foldlM_rel ?_ c.toProcess _ _ .nil) fun x y hxy => ⟨hxy, .other trivial nofun⟩
  intro out out' p h1
  refine bind_rel (dataLast_rel hR h p) fun m m' hm => ?_
  cases pm.find? p with
  | none => exact rfl
  | some q => exact MapRel.emplace h1 q (.cons hm .nil)

theorem procLast_rel' (hR : Relabels R) {c c' : Core V} (h : TimedCore R c c') {f g : Msg V → Except Err (OpMsg V × Kind V)}
    (hf : ∀ m m', TimedMsg R m m' → ExRel (TimedRes R) (f m) (g m')) : ExRel (TimedRes R) (procLast c f) (procLast c' g) := by
  unfold procLast
  refine bind_rel (sole_rel h) ?_
  rintro p _ rfl
  exact bind_rel (dataLast_rel hR h p) fun m m' hm => hf m m' hm

theorem procDifference_rel (hR : Relabels R) {c c' : Core V} (h : TimedCore R c c') (hk : BlindKind R (.difference true : Kind V)) :
    ExRel (TimedRes R) (procDifference c true) (procDifference c' true) := by
  unfold procDifference
  refine bind_rel (sole_rel h) ?_
  rintro p _ rfl
  refine bind_rel (dataMsg_rel hR h p 1) fun m m' hm => bind_rel (dataMsg_rel hR h p 0) fun m0 m0' hm0 => ?_
  refine bind_rel (A := R) ?_ fun t t' ht => ⟨single_rel ht _ _, .other hk nofun⟩
  rw [if_pos rfl, if_pos rfl]
  unfold toTimeE
  rw [(hk _ _ hm).1, (hk _ _ hm).2]
  exact hm

theorem procMovAvg_rel (hR : Relabels R) {c c' : Core V} (h : TimedCore R c c') : ExRel (TimedRes R) (procMovAvg c) (procMovAvg c') := by
  unfold procMovAvg
  refine bind_rel (sole_rel h) ?_
  rintro p _ rfl
  refine bind_rel (dataPort_rel h p) fun i i' hi => bind_rel (dataLast_rel hR h p) fun m m' hm => ?_
  exact ⟨single_rel hm _ _, .other trivial nofun⟩

theorem procStdDev_rel (hR : Relabels R) {c c' : Core V} (h : TimedCore R c c') : ExRel (TimedRes R) (procStdDev c) (procStdDev c') := by
  unfold procStdDev
  refine bind_rel (sole_rel h) ?_
  rintro p _ rfl
  refine bind_rel (dataPort_rel h p) fun i i' hi => bind_rel (dataLast_rel hR h p) fun m m' hm => ?_
  exact ⟨single_rel hm _ _, .other trivial nofun⟩

theorem firLoop_rel {l l' : List (Msg V)} (hl : List.Forall₂ (TimedMsg R) l l') : ∀ (acc acc' : V) (as : List V), ExRel (fun _ _ => True) (firLoop acc l as) (firLoop acc' l' as) := by
  induction hl with
  | nil => intro acc acc' as; cases as <;> trivial
  | cons h1 _ ih =>
    intro acc acc' as
    cases as with
    | nil => trivial
    | cons a as => exact ih _ _ _

theorem procFir_rel (hR : Relabels R) {c c' : Core V} (h : TimedCore R c c') (as : List V) : ExRel (TimedRes R) (procFir c as) (procFir c' as) := by
  unfold procFir
  refine bind_rel (sole_rel h) ?_
  rintro p _ rfl
  refine bind_rel (dataPort_rel h p) fun i i' hi => bind_rel (dataLast_rel hR h p) fun m m' hm => ?_
  exact bind_rel (firLoop_rel (List.rel_reverse hi.data) _ _ _) fun v v' _ => ⟨single_rel hm _ _, .other trivial nofun⟩

theorem procRsi_rel (hR : Relabels R) {c c' : Core V} (h : TimedCore R c c') {prev prev' : Option (V × V)} (hp : prev.isSome = prev'.isSome) :
    ExRel (TimedRes R) (procRsi c prev) (procRsi c' prev') := by
  unfold procRsi
  refine bind_rel (sole_rel h) ?_
  rintro p _ rfl
  refine bind_rel (dataPort_rel h p) fun i i' hi => ?_
  dsimp only
  rw [len hi.data]
  have hend : ∀ g g' : V × V, ExRel (TimedRes R) (do
      let l ← c.dataLast p
      .ok (single ⟨l.time, rsiValue g.1 g.2⟩, .rsi (some (g.1, g.2)))) (do
      let l ← c'.dataLast p
      .ok (single ⟨l.time, rsiValue g'.1 g'.2⟩, .rsi (some (g'.1, g'.2)))) :=
    fun g g' => bind_rel (dataLast_rel hR h p) fun m m' hm => ⟨single_rel hm _ _, .rsi rfl⟩
  cases prev <;> cases prev' <;> first | cases hp; done | skip
  · exact hend (_, _) (_, _)
  · exact bind_rel (dataMsg_rel hR h p _) fun b b' hb => bind_rel (dataMsg_rel hR h p _) fun a a' ha => hend (_, _) (_, _)

theorem constLoop_rel (hR : ∀ t t', R t t' ↔ t = t') (dt t : UInt64) (v v' : V) : ∀ (fuel : Nat) (next : UInt64),
    ExRel (fun x y : List (Msg V) × UInt64 => List.Forall₂ (TimedMsg R) x.1 y.1 ∧ x.2 = y.2) (constLoop dt t v fuel next) (constLoop dt t v' fuel next) := by
  intro fuel
  induction fuel with
  | zero => intro next; exact rfl
  | succ fuel ih =>
    intro next
    unfold constLoop
    split
    · exact bind_rel (ih _) fun x y hxy => ⟨.cons ((hR _ _).2 rfl) hxy.1, hxy.2⟩
    · exact ⟨.nil, rfl⟩

theorem ports_rel {ms ms' : List (Msg V)} (h : List.Forall₂ (TimedMsg R) ms ms') :
    TimedOut R (if ms = [] then [] else [(o1, ms)]) (if ms' = [] then [] else [(o1, ms')]) := by
  by_cases h0 : ms = []
  · rw [if_pos h0, if_pos ((nil_iff h).1 h0)]
    exact .nil
  · rw [if_neg h0, if_neg fun e => h0 ((nil_iff h).2 e)]
    exact .cons ⟨rfl, h⟩ .nil

theorem procConstRes_rel (hR : Relabels R) (he : ∀ t t', R t t' ↔ t = t') {c c' : Core V} (h : TimedCore R c c') (dt next : UInt64) (ini : Bool) (v v' : V) :
    ExRel (TimedRes R) (procConstRes c dt next ini v) (procConstRes c' dt next ini v') := by
  unfold procConstRes
  refine procLast_rel' hR h fun m m' hm => ?_
  have ht : m.time = m'.time := (he _ _).1 hm
  rw [ht]
  split
  · refine bind_rel (constLoop_rel he dt m'.time v v' _ next) ?_
    rintro ⟨ms, n⟩ ⟨ms', n'⟩ ⟨h1, h2⟩
    dsimp only at h1 h2 ⊢
    subst h2
    split
    · exact ⟨ports_rel (List.rel_append h1 (.cons ((he _ _).2 rfl) .nil)), .constRes he _ _ _ _ _⟩
    · exact ⟨ports_rel h1, .constRes he _ _ _ _ _⟩
  · exact ⟨.nil, .constRes he _ _ _ _ _⟩

theorem procCosRes_rel (hR : Relabels R) (he : ∀ t t', R t t' ↔ t = t') {c c' : Core V} (h : TimedCore R c c') (dt carry : UInt64) :
    ExRel (TimedRes R) (procCosRes c dt carry) (procCosRes c' dt carry) := by
  unfold procCosRes
  refine bind_rel (sole_rel h) ?_
  rintro p _ rfl
  refine bind_rel (dataMsg_rel hR h p 1) fun b b' hb => bind_rel (dataMsg_rel hR h p 0) fun a a' ha => ?_
  dsimp only
  rw [show b.time = b'.time from (he _ _).1 hb, show a.time = a'.time from (he _ _).1 ha]
  refine bind_rel (eq_rel (A := Eq) (fun _ => rfl) _) ?_
  rintro ⟨offs, j⟩ _ rfl
  refine ⟨ports_rel ?_, .other he nofun⟩
  induction offs with
  | nil => exact .nil
  | cons o l ih => exact .cons ((he _ _).2 rfl) ih

theorem times_gapSum (he : ∀ t t', R t t' ↔ t = t') {l l' : List (Msg V)} (h : List.Forall₂ (TimedMsg R) l l') : ∀ s : V, gapSum s l = gapSum s l' := by
  induction h with
  | nil => intro s; rfl
  | @cons a a' l l' h1 h2 ih =>
    intro s
    cases h2 with
    | nil => rfl
    | @cons b b' l l' h3 h4 =>
      unfold gapSum
      rw [show a.time = a'.time from (he _ _).1 h1, show b.time = b'.time from (he _ _).1 h3]
      exact ih _

theorem lsSums_rel (he : ∀ t t', R t t' ↔ t = t') {l l' : List (Msg V)} (h : List.Forall₂ (TimedMsg R) l l') : ∀ s s' : UInt64 × V × V × UInt64, s.1 = s'.1 ∧ s.2.2.2 = s'.2.2.2 →
    ExRel (fun x y : UInt64 × V × V × UInt64 => x.1 = y.1 ∧ x.2.2.2 = y.2.2.2) (l.foldlM lsSums s) (l'.foldlM lsSums s') := by
  induction h with
  | nil => intro s s' hs; exact hs
  | @cons a a' l l' h1 h2 ih =>
    intro s s' hs
    rw [List.foldlM_cons, List.foldlM_cons]
    refine bind_rel (A := fun x y : UInt64 × V × V × UInt64 => x.1 = y.1 ∧ x.2.2.2 = y.2.2.2) ?_ fun x y hxy => ih x y hxy
    obtain ⟨sx, sy, sxy, sx2⟩ := s
    obtain ⟨sx', sy', sxy', sx2'⟩ := s'
    obtain ⟨e1, e2⟩ := hs
    dsimp only at e1 e2
    subst e1 e2
    unfold lsSums
    dsimp only
    rw [show a.time = a'.time from (he _ _).1 h1]
    refine bind_rel (eq_rel (A := Eq) (fun _ => rfl) _) ?_
    rintro v _ rfl
    exact ⟨rfl, rfl⟩

theorem leastSquares_rel (he : ∀ t t', R t t' ↔ t = t') {l l' : List (Msg V)} (h : List.Forall₂ (TimedMsg R) l l') : ExRel (fun _ _ => True) (leastSquares l) (leastSquares l') := by
  unfold leastSquares
  refine bind_rel (lsSums_rel he h _ _ ⟨rfl, rfl⟩) ?_
  rintro ⟨sx, sy, sxy, sx2⟩ ⟨sx', sy', sxy', sx2'⟩ ⟨e1, e2⟩
  dsimp only at e1 e2 ⊢
  subst e1 e2
  rw [len h]
  refine bind_rel (eq_rel (A := Eq) (fun _ => rfl) _) ?_
  rintro den _ rfl
  split
  · cases h with
    | nil => exact rfl
    | cons h1 h2 =>
      cases h2 with
      | nil => exact rfl
      | cons h3 h4 => trivial
  · trivial

theorem makeBefore_rel (hR : Relabels R) (he : ∀ t t', R t t' ↔ t = t') {c c' : Core V} (h : TimedCore R c c') (p : Str) : ExRel (fun _ _ => True) (makeBefore c p) (makeBefore c' p) := by
  unfold makeBefore
  refine bind_rel (dataPort_rel h p) fun i i' hi => ?_
  dsimp only
  refine bind_rel (leastSquares_rel he hi.data) fun x y _ => bind_rel (dataMsg_rel hR h p 0) fun m m' hm => ?_
  rw [times_gapSum he hi.data, len hi.data]
  refine bind_rel (eq_rel (A := Eq) (fun _ => rfl) _) ?_
  rintro t _ rfl
  trivial

theorem lookAt_rel (hR : Relabels R) (he : ∀ t t', R t t' ↔ t = t') {c c' : Core V} (h : TimedCore R c c') (p : Str) (frm : Nat) (dt carry : UInt64) {before before' : Option (Msg V)}
    (hb : before.isSome = before'.isSome) :
    ExRel (fun x y : List (Msg V) × UInt64 × Option (Msg V) => List.Forall₂ (TimedMsg R) x.1 y.1 ∧ x.2.1 = y.2.1 ∧ x.2.2.isSome = y.2.2.isSome)
      (lookAt c p frm dt carry before) (lookAt c' p frm dt carry before') := by
  unfold lookAt
  refine bind_rel (dataMsg_rel hR h p _) fun b b' hbb => bind_rel (dataMsg_rel hR h p _) fun a a' ha => ?_
  dsimp only
  rw [show b.time = b'.time from (he _ _).1 hbb, show a.time = a'.time from (he _ _).1 ha]
  refine bind_rel (eq_rel (A := Eq) (fun _ => rfl) _) ?_
  rintro ⟨offs, j⟩ _ rfl
  dsimp only
  split
  · exact ⟨.nil, rfl, hb⟩
  · have hend : ∀ {z z' : Msg V} {u u' : Option (Msg V)}, u.isSome = u'.isSome → ExRel (fun x y : List (Msg V) × UInt64 × Option (Msg V) => List.Forall₂ (TimedMsg R) x.1 y.1 ∧ x.2.1 = y.2.1 ∧ x.2.2.isSome = y.2.2.isSome)
        (do
          let e ← c.dataMsg p (frm + 2)
          .ok (offs.map fun off => ⟨a'.time + off, hermiteInterpolate z.value a.value b.value e.value (ofTime off /. ofTime (b'.time - a'.time))⟩, newCarry a'.time b'.time dt carry j, u))
        (do
          let e ← c'.dataMsg p (frm + 2)
          .ok (offs.map fun off => ⟨a'.time + off, hermiteInterpolate z'.value a'.value b'.value e.value (ofTime off /. ofTime (b'.time - a'.time))⟩, newCarry a'.time b'.time dt carry j, u')) := by
      intro z z' u u' hu
      refine bind_rel (dataMsg_rel hR h p _) fun e e' _ => ⟨?_, rfl, hu⟩
      dsimp only
      clear hu
      induction offs with
      | nil => exact .nil
      | cons o l ih => exact .cons ((he _ _).2 rfl) (by cases l with | nil => exact .nil | cons => exact ih (by simp))
    cases frm with
    | zero =>
      cases before <;> cases before' <;> first | (cases hb; done) | skip
      · exact bind_rel (bind_rel (A := fun _ _ => True) (B := fun x y : Msg V × Option (Msg V) => x.2.isSome = y.2.isSome) (makeBefore_rel hR he h p) fun z z' _ => rfl) fun x y hxy => hend hxy
      · exact hend rfl
    | succ f => exact bind_rel (dataMsg_rel hR h p f) fun z z' _ => hend hb

theorem procHermRes_rel (hR : Relabels R) (he : ∀ t t', R t t' ↔ t = t') {c c' : Core V} (h : TimedCore R c c') (dt carry : UInt64) {before before' : Option (Msg V)}
    (hb : before.isSome = before'.isSome) : ExRel (TimedRes R) (procHermRes c dt carry before) (procHermRes c' dt carry before') := by
  unfold procHermRes
  refine bind_rel (sole_rel h) ?_
  rintro p _ rfl
  have hend : ∀ {x y : List (Msg V) × UInt64 × Option (Msg V)}, (List.Forall₂ (TimedMsg R) x.1 y.1 ∧ x.2.1 = y.2.1 ∧ x.2.2.isSome = y.2.2.isSome) →
      ExRel (TimedRes R) (.ok (if x.1 = [] then [] else [(o1, x.1)], .hermRes dt x.2.1 x.2.2)) (.ok (if y.1 = [] then [] else [(o1, y.1)], .hermRes dt y.2.1 y.2.2)) := by
    rintro ⟨ms, u, w⟩ ⟨ms', u', w'⟩ ⟨h1, h2, h3⟩
    dsimp only at h1 h2 h3 ⊢
    subst h2
    exact ⟨ports_rel h1, .hermRes he _ _ h3⟩
  cases before <;> cases before' <;> first | (cases hb; done) | skip
  · refine bind_rel (lookAt_rel hR he h p 0 dt carry (before := none) (before' := none) rfl) fun x y hxy => ?_
    obtain ⟨ms, u, w⟩ := x
    obtain ⟨ms', u', w'⟩ := y
    obtain ⟨h1, h2, h3⟩ := hxy
    dsimp only at h1 h2 h3 ⊢
    subst h2
    exact bind_rel (lookAt_rel hR he h p 1 dt u h3) fun x y hxy => hend (x := (ms ++ x.1, x.2)) (y := (ms' ++ y.1, y.2)) ⟨List.rel_append h1 hxy.1, hxy.2⟩
  · exact bind_rel (lookAt_rel hR he h p 1 dt carry rfl) fun x y hxy => hend hxy

theorem function_ok {ps : List (V × V)} (h : 2 ≤ ps.length) (t : Interp) (x : V) : ∃ v, functionValue ps t x = .ok v := by
  have h1 := df_functionValue h t x
  have h2 := qt_functionValue ps t x
  have h3 := en_functionValue ps t x
  revert h1 h2 h3
  generalize functionValue ps t x = r
  intro h1 h2 h3
  cases r with
  | ok v => exact ⟨v, rfl⟩
  | error e =>
    cases e with
    | exc e => exact absurd rfl (h2 e)
    | ub u => exact absurd rfl (h1 u)
    | diverge => exact absurd rfl h3

theorem process_rel (hR : Relabels R) {o o' : Op V} (h : TimedOp R o o') : ExRel (TimedRes R) o.process o'.process := by
  obtain ⟨c, k⟩ := o
  obtain ⟨c', k'⟩ := o'
  obtain ⟨hc, hk⟩ := h
  dsimp only at hc hk
  cases hk with
  | input pm hl => exact procInput_rel hR hc pm hl
  | cumSum a a' => exact procLast_rel' hR hc fun m m' hm => ⟨single_rel hm _ _, .cumSum _ _⟩
  | rsi hp => exact procRsi_rel hR hc hp
  | constRes he dt next ini v v' => exact procConstRes_rel hR he hc dt next ini v v'
  | hermRes he dt carry hb => exact procHermRes_rel hR he hc dt carry hb
  | other ho hi =>
    cases k with
    | input pm last => exact absurd rfl (hi pm last)
    | output pm => exact procOutput_rel hR hc pm
    | filter f v => exact ho.elim
    | add v => exact procLast_rel' hR hc fun m m' hm => ⟨single_rel hm _ _, .other trivial nofun⟩
    | scale v => exact procLast_rel' hR hc fun m m' hm => ⟨single_rel hm _ _, .other trivial nofun⟩
    | power v => exact procLast_rel' hR hc fun m m' hm => ⟨single_rel hm _ _, .other trivial nofun⟩
    | constant v => exact procLast_rel' hR hc fun m m' hm => ⟨single_rel hm _ _, .other trivial nofun⟩
    | identity =>
      refine bind_rel (sole_rel hc) ?_
      rintro p _ rfl
      exact bind_rel (dataFirst_rel hR hc p) fun m m' hm => ⟨single_rel' hm, .other trivial nofun⟩
    | count n => exact procLast_rel' hR hc fun m m' hm => ⟨single_rel hm _ _, .other trivial nofun⟩
    | cumSum a => exact procLast_rel' hR hc fun m m' hm => ⟨single_rel hm _ _, .cumSum _ _⟩
    | difference b =>
      cases b with
      | false => exact ho.elim
      | true => exact procDifference_rel hR hc ho
    | movAvg => exact procMovAvg_rel hR hc
    | stdDev => exact procStdDev_rel hR hc
    | fir as => exact procFir_rel hR hc as
    | function pts t =>
      refine procLast_rel' hR hc fun m m' hm => ?_
      obtain ⟨v, hv⟩ := function_ok ho t m.value
      obtain ⟨v', hv'⟩ := function_ok ho t m'.value
      rw [hv, hv']
      exact ⟨single_rel hm _ _, .other ho nofun⟩
    | rsi prev => exact procRsi_rel hR hc rfl
    | timeShift dt n => exact procLast_rel' hR hc fun m m' hm => ⟨single_rel ((ho _ _).2 (by rw [(ho _ _).1 hm])) _ _, .other ho nofun⟩
    | constRes dt next ini v => exact procConstRes_rel hR ho hc dt next ini v v
    | cosRes dt carry => exact procCosRes_rel hR ho hc dt carry
    | hermRes dt carry before => exact procHermRes_rel hR ho hc dt carry rfl
    | peak => exact ho.elim
    | binary op => exact ⟨.nil, .other ho nofun⟩
    | demux => exact ho.elim
    | _ => exact ⟨.nil, .other trivial nofun⟩

end Timing
end Rtbot
