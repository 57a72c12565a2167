import Verif.Lemmas.Nearby

/-! # `processData` on corresponding times -/

set_option linter.unusedSectionVars false

namespace Rtbot
namespace Nearby
open Spec Mapped
variable {V : Type} [Num V] [Field V] [LinearOrder V] [Exact V] [IsStrictOrderedRing V] {R : UInt64 → UInt64 → Prop} {W : V → V → Prop}

/-- Corresponding results of `processData`. -/
def ValRes (R : UInt64 → UInt64 → Prop) (W : V → V → Prop) (x y : OpMsg V × Kind V) : Prop := ValOut R W x.1 y.1 ∧ ValKind R W x.2 y.2

theorem erase_rel {α : Type} {A : α → α → Prop} {m m' : Map α} (h : SameMap A m m') (k : Str) : SameMap A (m.erase k) (m'.erase k) := by
  unfold Map.erase
  induction h with
  | nil => exact .nil
  | @cons e e' l l' h1 h2 ih =>
    rw [List.filter_cons, List.filter_cons, ← h1.1]
    split
    · exact .cons h1 ih
    · exact ih

theorem single_rel {t t' : UInt64} (h : R t t') {v v' : V} (hv : W v v') : ValOut R W (single ⟨t, v⟩) (single ⟨t', v'⟩) := .cons ⟨rfl, .cons ⟨h, hv⟩ .nil⟩ .nil

theorem single_rel' {m m' : Msg V} (h : ValMsg R W m m') : ValOut R W (single m) (single m') := .cons ⟨rfl, .cons h .nil⟩ .nil

theorem foldlM_rel {α β : Type} {B : β → β → Prop} {f g : β → α → Except Err β} (h : ∀ b b' a, B b b' → ExRel B (f b a) (g b' a)) (l : List α) :
    ∀ b b', B b b' → ExRel B (l.foldlM f b) (l.foldlM g b') := by
  induction l with
  | nil => intro b b' hb; exact hb
  | cons a l ih =>
    intro b b' hb
    rw [List.foldlM_cons, List.foldlM_cons]
    exact bind_rel (h b b' a hb) fun b b' hb => ih b b' hb

theorem procInput_rel (hR : Laws R W) {c c' : Core V} (h : ValCore R W c c') (pm : Map Str) {last last' : Map (Msg V)} (hl : SameMap (ValMsg R W) last last') :
    ExRel (ValRes R W) (procInput c pm last) (procInput c' pm last') := by
  unfold procInput
  rw [← h.toProcess]
  refine bind_rel (A := fun x y : OpMsg V × Map (Msg V) => ValOut R W x.1 y.1 ∧ SameMap (ValMsg R W) x.2 y.2) (foldlM_rel ?_ c.toProcess _ _ ⟨.nil, hl⟩) fun x y hxy => ⟨hxy.1, .input pm hxy.2⟩
  rintro ⟨out, last⟩ ⟨out', last'⟩ p ⟨h1, h2⟩
  dsimp only at h1 h2
  unfold inputStep
  refine bind_rel (dataMsg_rel hR h p 0) fun m m' hm => ?_
  dsimp only
  have hs : ExRel (fun x y : OpMsg V × Map (Msg V) => ValOut R W x.1 y.1 ∧ SameMap (ValMsg R W) x.2 y.2)
      (match pm.find? p with
      | none => undefined .endDeref
      | some q => .ok (out.emplace q [m], (last.erase p).emplace p m))
      (match pm.find? p with
      | none => undefined .endDeref
      | some q => .ok (out'.emplace q [m'], (last'.erase p).emplace p m')) := by
    cases pm.find? p with
    | none => exact rfl
    | some q => exact ⟨MapRel.emplace h1 q (.cons hm .nil), MapRel.emplace (erase_rel h2 p) p hm⟩
  have h3 := MapRel.find h2 p
  cases e1 : last.find? p <;> cases e2 : last'.find? p <;> rw [e1, e2] at h3 <;> cases h3
  · exact hs
  · rename_i l l' hll
    dsimp only
    by_cases ht : l.time < m.time
    · rw [if_pos ht, if_pos ((hR.lt hll.1 hm.1).1 ht)]
      exact hs
    · rw [if_neg ht, if_neg fun h => ht ((hR.lt hll.1 hm.1).2 h)]
      exact ⟨h1, h2⟩

theorem procOutput_rel (hR : Laws R W) {c c' : Core V} (h : ValCore R W c c') (pm : Map Str) : ExRel (ValRes R W) (procOutput c pm) (procOutput c' pm) := by
  unfold procOutput
  rw [← h.toProcess]
  refine bind_rel (A := ValOut R W) (foldlM_rel ?_ c.toProcess _ _ .nil) fun x y hxy => ⟨hxy, .other trivial nofun⟩
  intro out out' p h1
  refine bind_rel (dataLast_rel hR h p) fun m m' hm => ?_
  cases pm.find? p with
  | none => exact rfl
  | some q => exact MapRel.emplace h1 q (.cons hm .nil)

theorem procLast_rel' (hR : Laws R W) {c c' : Core V} (h : ValCore R W c c') {f g : Msg V → Except Err (OpMsg V × Kind V)}
    (hf : ∀ m m', ValMsg R W m m' → ExRel (ValRes R W) (f m) (g m')) : ExRel (ValRes R W) (procLast c f) (procLast c' g) := by
  unfold procLast
  refine bind_rel (sole_rel h) ?_
  rintro p _ rfl
  exact bind_rel (dataLast_rel hR h p) fun m m' hm => hf m m' hm

/-- The stored sum of a buffer is the sum of its values. -/
def Tallied (i : Inp V) : Prop := i.sum = (i.data.map Msg.value).sum

theorem values_rel {l l' : List (Msg V)} (h : List.Forall₂ (ValMsg R W) l l') : List.Forall₂ W (l.map Msg.value) (l'.map Msg.value) := by
  induction h with
  | nil => exact .nil
  | cons h1 _ ih => exact .cons h1.2 ih

theorem find_mem {α : Type} {m : Map α} {k : Str} {x : α} (h : m.find? k = some x) : ∃ e ∈ m, e.2 = x := by
  induction m with
  | nil => cases h
  | cons e m ih =>
    rw [Map.find?_cons] at h
    split at h
    · cases h
      exact ⟨e, List.mem_cons_self, rfl⟩
    · obtain ⟨e', h1, h2⟩ := ih h
      exact ⟨e', List.mem_cons_of_mem _ h1, h2⟩

theorem port_tallied {c : Core V} (h : ∀ e ∈ c.dataIn, Tallied e.2) {p : Str} {i : Inp V} (hi : c.dataPort p = .ok i) : Tallied i := by
  unfold Core.dataPort at hi
  cases hf : c.dataIn.find? p with
  | none => rw [hf] at hi; cases hi
  | some x =>
    rw [hf] at hi
    cases hi
    obtain ⟨e, he, rfl⟩ := find_mem hf
    exact h e he

theorem procMovAvg_rel (hR : Laws R W) {c c' : Core V} (h : ValCore R W c c') (hk : FineKind R W (.movAvg : Kind V)) (ht : ∀ e ∈ c.dataIn, Tallied e.2) (ht' : ∀ e ∈ c'.dataIn, Tallied e.2) :
    ExRel (ValRes R W) (procMovAvg c) (procMovAvg c') := by
  unfold procMovAvg
  refine bind_rel (sole_rel h) ?_
  rintro p _ rfl
  have h1 := dataPort_rel h p
  cases e1 : c.dataPort p <;> cases e2 : c'.dataPort p <;> rw [e1, e2] at h1 <;> first | exact h1.elim | skip
  · exact h1
  · rename_i i i'
    show ExRel (ValRes R W) (c.dataLast p >>= fun l => _) (c'.dataLast p >>= fun l => _)
    refine bind_rel (dataLast_rel hR h p) fun m m' hm => ⟨single_rel hm.1 ?_, .other hk nofun⟩
    rw [Exact.div_eq, Exact.div_eq, Exact.ofNat_eq, Exact.ofNat_eq, port_tallied ht e1, port_tallied ht' e2]
    have := hk _ _ (values_rel h1.data)
    rw [List.length_map, List.length_map] at this
    exact this

theorem firLoop_eq : ∀ (l : List (Msg V)) (acc : V) (as : List V), firLoop acc l as = if l.length ≤ as.length then .ok (acc + dot (l.map Msg.value) as) else throwExc .outOfRange := by
  intro l
  induction l with
  | nil => intro acc as; simp [firLoop, dot]
  | cons m l ih =>
    intro acc as
    cases as with
    | nil => rfl
    | cons a as =>
      unfold firLoop
      rw [ih, Exact.add_eq, Exact.mul_eq]
      simp [dot, add_assoc]

theorem procFir_rel (hR : Laws R W) {c c' : Core V} (h : ValCore R W c c') {as : List V} (hk : FineKind R W (.fir as : Kind V)) : ExRel (ValRes R W) (procFir c as) (procFir c' as) := by
  unfold procFir
  refine bind_rel (sole_rel h) ?_
  rintro p _ rfl
  refine bind_rel (dataPort_rel h p) fun i i' hi => bind_rel (dataLast_rel hR h p) fun m m' hm => ?_
  have hl := List.rel_reverse hi.data
  rw [firLoop_eq, firLoop_eq, len hl]
  split
  · refine ⟨single_rel hm.1 ?_, .other hk nofun⟩
    rw [Exact.ofNat_eq, Nat.cast_zero, zero_add, zero_add]
    exact hk _ _ (values_rel hl)
  · exact rfl

theorem constLoop_rel (hR : ∀ t t', R t t' ↔ t = t') (dt t : UInt64) {v v' : V} (hv : W v v') : ∀ (fuel : Nat) (next : UInt64),
    ExRel (fun x y : List (Msg V) × UInt64 => List.Forall₂ (ValMsg R W) x.1 y.1 ∧ x.2 = y.2) (constLoop dt t v fuel next) (constLoop dt t v' fuel next) := by
  intro fuel
  induction fuel with
  | zero => intro next; exact rfl
  | succ fuel ih =>
    intro next
    unfold constLoop
    split
    · exact bind_rel (ih _) fun x y hxy => ⟨.cons ⟨(hR _ _).2 rfl, hv⟩ hxy.1, hxy.2⟩
    · exact ⟨.nil, rfl⟩

theorem ports_rel {ms ms' : List (Msg V)} (h : List.Forall₂ (ValMsg R W) ms ms') :
    ValOut R W (if ms = [] then [] else [(o1, ms)]) (if ms' = [] then [] else [(o1, ms')]) := by
  by_cases h0 : ms = []
  · rw [if_pos h0, if_pos ((nil_iff h).1 h0)]
    exact .nil
  · rw [if_neg h0, if_neg fun e => h0 ((nil_iff h).2 e)]
    exact .cons ⟨rfl, h⟩ .nil

theorem procConstRes_rel (hR : Laws R W) (he : ∀ t t', R t t' ↔ t = t') {c c' : Core V} (h : ValCore R W c c') (dt next : UInt64) (ini : Bool) {v v' : V} (hv : W v v') :
    ExRel (ValRes R W) (procConstRes c dt next ini v) (procConstRes c' dt next ini v') := by
  unfold procConstRes
  refine procLast_rel' hR h fun m m' hm => ?_
  have ht : m.time = m'.time := (he _ _).1 hm.1
  rw [ht]
  split
  · refine bind_rel (constLoop_rel he dt m'.time hv _ next) ?_
    rintro ⟨ms, n⟩ ⟨ms', n'⟩ ⟨h1, h2⟩
    dsimp only at h1 h2 ⊢
    subst h2
    split
    · exact ⟨ports_rel (List.rel_append h1 (.cons ⟨(he _ _).2 rfl, hm.2⟩ .nil)), .constRes he _ _ _ hm.2⟩
    · exact ⟨ports_rel h1, .constRes he _ _ _ hm.2⟩
  · exact ⟨.nil, .constRes he _ _ _ hm.2⟩

theorem process_rel (hR : Laws R W) {o o' : Op V} (h : ValOp R W o o') (ht : o.kind = .movAvg → (∀ e ∈ o.core.dataIn, Tallied e.2) ∧ ∀ e ∈ o'.core.dataIn, Tallied e.2) :
    ExRel (ValRes R W) o.process o'.process := by
  obtain ⟨c, k⟩ := o
  obtain ⟨c', k'⟩ := o'
  obtain ⟨hc, hk⟩ := h
  dsimp only at hc hk ht
  cases hk with
  | input pm hl => exact procInput_rel hR hc pm hl
  | cumSum hW ha => exact procLast_rel' hR hc fun m m' hm => ⟨single_rel hm.1 (by rw [Exact.add_eq, Exact.add_eq]; exact hW _ _ _ _ ha hm.2), .cumSum hW (by rw [Exact.add_eq, Exact.add_eq]; exact hW _ _ _ _ ha hm.2)⟩
  | constRes he dt next ini hv => exact procConstRes_rel hR he hc dt next ini hv
  | other ho hi =>
    cases k with
    | input pm last => exact absurd rfl (hi pm last)
    | output pm => exact procOutput_rel hR hc pm
    | add v => exact procLast_rel' hR hc fun m m' hm => ⟨single_rel hm.1 (by rw [Exact.add_eq, Exact.add_eq]; exact ho _ _ hm.2), .other ho nofun⟩
    | scale v => exact procLast_rel' hR hc fun m m' hm => ⟨single_rel hm.1 (by rw [Exact.mul_eq, Exact.mul_eq]; exact ho _ _ hm.2), .other ho nofun⟩
    | constant v => exact procLast_rel' hR hc fun m m' hm => ⟨single_rel hm.1 (hR.refl _), .other trivial nofun⟩
    | identity =>
      refine bind_rel (sole_rel hc) ?_
      rintro p _ rfl
      exact bind_rel (dataFirst_rel hR hc p) fun m m' hm => ⟨single_rel' hm, .other trivial nofun⟩
    | count n => exact procLast_rel' hR hc fun m m' hm => ⟨single_rel hm.1 (hR.refl _), .other trivial nofun⟩
    | cumSum a =>
      exact procLast_rel' hR hc fun m m' hm => ⟨single_rel hm.1 (by rw [Exact.add_eq, Exact.add_eq]; exact ho _ _ _ _ (hR.refl _) hm.2),
        .cumSum ho (by rw [Exact.add_eq, Exact.add_eq]; exact ho _ _ _ _ (hR.refl _) hm.2)⟩
    | movAvg => exact procMovAvg_rel hR hc ho (ht rfl).1 (ht rfl).2
    | fir as => exact procFir_rel hR hc ho
    | timeShift dt n => exact procLast_rel' hR hc fun m m' hm => ⟨single_rel ((ho _ _).2 (by rw [(ho _ _).1 hm.1])) hm.2, .other ho nofun⟩
    | constRes dt next ini v => exact procConstRes_rel hR ho hc dt next ini (hR.refl _)
    | filter | power | difference | stdDev | peak | function | rsi | cosRes | hermRes | demux => exact ho.elim
    | _ => exact ⟨.nil, .other ho nofun⟩

end Nearby
end Rtbot
