import Verif.Lemmas.Relabel

/-! # `processData` on corresponding times -/

set_option linter.unusedSectionVars false

namespace Rtbot
namespace Relabel
open Spec Mapped
variable {V : Type} [Num V] {R : UInt64 → UInt64 → Prop}

/-- Corresponding results of `processData`. -/
def SameRes (R : UInt64 → UInt64 → Prop) (x y : OpMsg V × Kind V) : Prop := SameOut R x.1 y.1 ∧ SameKind R x.2 y.2

theorem erase_rel {α : Type} {A : α → α → Prop} {m m' : Map α} (h : SameMap A m m') (k : Str) : SameMap A (m.erase k) (m'.erase k) := by
  unfold Map.erase
  induction h with
  | nil => exact .nil
  | @cons e e' l l' h1 h2 ih =>
    rw [List.filter_cons, List.filter_cons, ← h1.1]
    split
    · exact .cons h1 ih
    · exact ih

theorem single_rel {t t' : UInt64} (h : R t t') (v : V) : SameOut R (single ⟨t, v⟩) (single ⟨t', v⟩) := .cons ⟨rfl, .cons ⟨h, rfl⟩ .nil⟩ .nil

theorem single_rel' {m m' : Msg V} (h : SameMsg R m m') : SameOut R (single m) (single m') := .cons ⟨rfl, .cons h .nil⟩ .nil

theorem foldlM_rel {α β : Type} {B : β → β → Prop} {f g : β → α → Except Err β} (h : ∀ b b' a, B b b' → ExRel B (f b a) (g b' a)) (l : List α) :
    ∀ b b', B b b' → ExRel B (l.foldlM f b) (l.foldlM g b') := by
  induction l with
  | nil => intro b b' hb; exact hb
  | cons a l ih =>
    intro b b' hb
    rw [List.foldlM_cons, List.foldlM_cons]
    exact bind_rel (h b b' a hb) fun b b' hb => ih b b' hb

theorem procInput_rel (hR : Relabels R) {c c' : Core V} (h : SameCore R c c') (pm : Map Str) {last last' : Map (Msg V)} (hl : SameMap (SameMsg R) last last') :
    ExRel (SameRes R) (procInput c pm last) (procInput c' pm last') := by
  unfold procInput
  rw [← h.toProcess]
  refine bind_rel (A := fun x y : OpMsg V × Map (Msg V) => SameOut R x.1 y.1 ∧ SameMap (SameMsg R) x.2 y.2) (foldlM_rel ?_ c.toProcess _ _ ⟨.nil, hl⟩) fun x y hxy => ⟨hxy.1, .input pm hxy.2⟩
  rintro ⟨out, last⟩ ⟨out', last'⟩ p ⟨h1, h2⟩
  dsimp only at h1 h2
  unfold inputStep
  refine bind_rel (dataMsg_rel hR h p 0) fun m m' hm => ?_
  dsimp only
  have hs : ExRel (fun x y : OpMsg V × Map (Msg V) => SameOut R x.1 y.1 ∧ SameMap (SameMsg R) x.2 y.2)
      (match pm.find? p with
      | none => undefined .endDeref
      | some q => .ok (out.emplace q [m], (last.erase p).emplace p m))
      (match pm.find? p with
      | none => undefined .endDeref
      | some q => .ok (out'.emplace q [m'], (last'.erase p).emplace p m')) := by
    cases pm.find? p with
    | none => exact rfl
    | some q => exact ⟨MapRel.emplace h1 q (.cons hm .nil), MapRel.emplace (erase_rel h2 p) p hm⟩
  have h3 := MapRel.find h2 p
  cases e1 : last.find? p <;> cases e2 : last'.find? p <;> rw [e1, e2] at h3 <;> cases h3
  · exact hs
  · rename_i l l' hll
    dsimp only
    by_cases ht : l.time < m.time
    · rw [if_pos ht, if_pos ((hR.lt hll.1 hm.1).1 ht)]
      exact hs
    · rw [if_neg ht, if_neg fun h => ht ((hR.lt hll.1 hm.1).2 h)]
      exact ⟨h1, h2⟩

theorem procOutput_rel (hR : Relabels R) {c c' : Core V} (h : SameCore R c c') (pm : Map Str) : ExRel (SameRes R) (procOutput c pm) (procOutput c' pm) := by
  unfold procOutput
  rw [← h.toProcess]
  refine bind_rel (A := SameOut R) (foldlM_rel ?_ c.toProcess _ _ .nil) fun x y hxy => ⟨hxy, .other trivial nofun⟩
  intro out out' p h1
  refine bind_rel (dataLast_rel hR h p) fun m m' hm => ?_
  cases pm.find? p with
  | none => exact rfl
  | some q => exact MapRel.emplace h1 q (.cons hm .nil)

theorem procLast_rel (hR : Relabels R) {c c' : Core V} (h : SameCore R c c') {f : Msg V → Except Err (OpMsg V × Kind V)}
    (hf : ∀ m m', SameMsg R m m' → ExRel (SameRes R) (f m) (f m')) : ExRel (SameRes R) (procLast c f) (procLast c' f) := by
  unfold procLast
  refine bind_rel (sole_rel h) ?_
  rintro p _ rfl
  exact bind_rel (dataLast_rel hR h p) fun m m' hm => hf m m' hm

theorem procDifference_rel (hR : Relabels R) {c c' : Core V} (h : SameCore R c c') (hk : OrderKind R (.difference true : Kind V)) :
    ExRel (SameRes R) (procDifference c true) (procDifference c' true) := by
  unfold procDifference
  refine bind_rel (sole_rel h) ?_
  rintro p _ rfl
  refine bind_rel (dataMsg_rel hR h p 1) fun m m' hm => bind_rel (dataMsg_rel hR h p 0) fun m0 m0' hm0 => ?_
  refine bind_rel (A := R) ?_ fun t t' ht => ⟨by rw [hm.2, hm0.2]; exact single_rel ht _, .other hk nofun⟩
  rw [if_pos rfl, if_pos rfl]
  unfold toTimeE
  rw [(hk _ _ hm.1).1, (hk _ _ hm.1).2]
  exact hm.1

theorem procMovAvg_rel (hR : Relabels R) {c c' : Core V} (h : SameCore R c c') : ExRel (SameRes R) (procMovAvg c) (procMovAvg c') := by
  unfold procMovAvg
  refine bind_rel (sole_rel h) ?_
  rintro p _ rfl
  refine bind_rel (dataPort_rel h p) fun i i' hi => bind_rel (dataLast_rel hR h p) fun m m' hm => ?_
  rw [hi.sum, len hi.data]
  exact ⟨single_rel hm.1 _, .other trivial nofun⟩

theorem foldl_rel {β : Type} {f g : β → Msg V → β} (h : ∀ b m m', SameMsg R m m' → f b m = g b m') {l l' : List (Msg V)} (hl : List.Forall₂ (SameMsg R) l l') :
    ∀ b, l.foldl f b = l'.foldl g b := by
  induction hl with
  | nil => intro b; rfl
  | cons h1 _ ih =>
    intro b
    rw [List.foldl_cons, List.foldl_cons, h b _ _ h1]
    exact ih _

theorem procStdDev_rel (hR : Relabels R) {c c' : Core V} (h : SameCore R c c') : ExRel (SameRes R) (procStdDev c) (procStdDev c') := by
  unfold procStdDev
  refine bind_rel (sole_rel h) ?_
  rintro p _ rfl
  refine bind_rel (dataPort_rel h p) fun i i' hi => bind_rel (dataLast_rel hR h p) fun m m' hm => ?_
  dsimp only
  rw [hi.sum, len hi.data, foldl_rel (fun b m m' hm => by rw [hm.2]) hi.data]
  exact ⟨single_rel hm.1 _, .other trivial nofun⟩

theorem any_rel {f : V → Bool} {l l' : List (Msg V)} (hl : List.Forall₂ (SameMsg R) l l') : (l.any fun m => f m.value) = l'.any fun m => f m.value := by
  induction hl with
  | nil => rfl
  | cons h1 _ ih => rw [List.any_cons, List.any_cons, ih, h1.2]

theorem procPeak_rel (hR : Relabels R) {c c' : Core V} (h : SameCore R c c') : ExRel (SameRes R) (procPeak c) (procPeak c') := by
  unfold procPeak
  refine bind_rel (sole_rel h) ?_
  rintro p _ rfl
  refine bind_rel (dataPort_rel h p) fun i i' hi => ?_
  rw [len hi.data]
  refine bind_rel (dataMsg_rel hR h p _) fun m m' hm => ?_
  refine ⟨?_, .other trivial nofun⟩
  dsimp only
  rw [hm.2, any_rel (f := fun v => Num.lt m'.value v) hi.data]
  split
  · exact .nil
  · exact single_rel' hm

theorem firLoop_rel {l l' : List (Msg V)} (hl : List.Forall₂ (SameMsg R) l l') : ∀ (acc : V) (as : List V), firLoop acc l as = firLoop acc l' as := by
  induction hl with
  | nil => intro acc as; rfl
  | cons h1 _ ih =>
    intro acc as
    cases as with
    | nil => rfl
    | cons a as =>
      unfold firLoop
      rw [h1.2]
      exact ih _ _

theorem procFir_rel (hR : Relabels R) {c c' : Core V} (h : SameCore R c c') (as : List V) : ExRel (SameRes R) (procFir c as) (procFir c' as) := by
  unfold procFir
  refine bind_rel (sole_rel h) ?_
  rintro p _ rfl
  refine bind_rel (dataPort_rel h p) fun i i' hi => bind_rel (dataLast_rel hR h p) fun m m' hm => ?_
  rw [firLoop_rel (List.rel_reverse hi.data)]
  refine bind_rel (eq_rel (A := Eq) (fun _ => rfl) _) ?_
  rintro v _ rfl
  exact ⟨single_rel hm.1 _, .other trivial nofun⟩

theorem rsiSums_rel {l l' : List (Msg V)} (hl : List.Forall₂ (SameMsg R) l l') : ∀ s : V × V, rsiSums s l = rsiSums s l' := by
  induction hl with
  | nil => intro s; rfl
  | cons h1 h2 ih =>
    intro s
    cases h2 with
    | nil => rfl
    | cons h3 h4 =>
      unfold rsiSums
      dsimp only
      rw [h1.2, h3.2]
      exact ih _

theorem procRsi_rel (hR : Relabels R) {c c' : Core V} (h : SameCore R c c') (prev : Option (V × V)) : ExRel (SameRes R) (procRsi c prev) (procRsi c' prev) := by
  unfold procRsi
  refine bind_rel (sole_rel h) ?_
  rintro p _ rfl
  refine bind_rel (dataPort_rel h p) fun i i' hi => ?_
  dsimp only
  rw [rsiSums_rel hi.data, len hi.data]
  have hend : ∀ g : V × V, ExRel (SameRes R) (do
      let l ← c.dataLast p
      .ok (single ⟨l.time, rsiValue g.1 g.2⟩, .rsi (some (g.1, g.2)))) (do
      let l ← c'.dataLast p
      .ok (single ⟨l.time, rsiValue g.1 g.2⟩, .rsi (some (g.1, g.2)))) :=
    fun g => bind_rel (dataLast_rel hR h p) fun m m' hm => ⟨single_rel hm.1 _, .other trivial nofun⟩
  cases prev with
  | none => exact hend _
  | some pr =>
    refine bind_rel (dataMsg_rel hR h p _) fun b b' hb => bind_rel (dataMsg_rel hR h p _) fun a a' ha => ?_
    rw [hb.2, ha.2]
    exact hend _

theorem process_rel (hR : Relabels R) {o o' : Op V} (h : SameOp R o o') : ExRel (SameRes R) o.process o'.process := by
  obtain ⟨c, k⟩ := o
  obtain ⟨c', k'⟩ := o'
  obtain ⟨hc, hk⟩ := h
  dsimp only at hc hk
  cases hk with
  | input pm hl => exact procInput_rel hR hc pm hl
  | other ho hi =>
    cases k with
    | input pm last => exact absurd rfl (hi pm last)
    | output pm => exact procOutput_rel hR hc pm
    | filter f v =>
      refine procLast_rel hR hc fun m m' hm => ⟨?_, .other trivial nofun⟩
      dsimp only
      rw [hm.2]
      split
      · exact single_rel' hm
      · exact .nil
    | add v => exact procLast_rel hR hc fun m m' hm => ⟨by rw [hm.2]; exact single_rel hm.1 _, .other trivial nofun⟩
    | scale v => exact procLast_rel hR hc fun m m' hm => ⟨by rw [hm.2]; exact single_rel hm.1 _, .other trivial nofun⟩
    | power v => exact procLast_rel hR hc fun m m' hm => ⟨by rw [hm.2]; exact single_rel hm.1 _, .other trivial nofun⟩
    | constant v => exact procLast_rel hR hc fun m m' hm => ⟨single_rel hm.1 _, .other trivial nofun⟩
    | identity =>
      refine bind_rel (sole_rel hc) ?_
      rintro p _ rfl
      exact bind_rel (dataFirst_rel hR hc p) fun m m' hm => ⟨single_rel' hm, .other trivial nofun⟩
    | count n => exact procLast_rel hR hc fun m m' hm => ⟨single_rel hm.1 _, .other trivial nofun⟩
    | cumSum a => exact procLast_rel hR hc fun m m' hm => by rw [hm.2]; exact ⟨single_rel hm.1 _, .other trivial nofun⟩
    | difference b =>
      cases b with
      | false => exact ho.elim
      | true => exact procDifference_rel hR hc ho
    | movAvg => exact procMovAvg_rel hR hc
    | stdDev => exact procStdDev_rel hR hc
    | peak => exact procPeak_rel hR hc
    | fir as => exact procFir_rel hR hc as
    | function pts t =>
      refine procLast_rel hR hc fun m m' hm => ?_
      rw [hm.2]
      refine bind_rel (eq_rel (A := Eq) (fun _ => rfl) _) ?_
      rintro v _ rfl
      exact ⟨single_rel hm.1 _, .other trivial nofun⟩
    | rsi prev => exact procRsi_rel hR hc prev
    | timeShift | constRes | cosRes | hermRes => exact ho.elim
    | _ => exact ⟨.nil, .other trivial nofun⟩

end Relabel
end Rtbot
