import Verif.Lemmas.Wiring
import Verif.Lemmas.Ports

set_option linter.unusedSectionVars false

/-! # Creating pipelines -/

namespace Rtbot
variable {V : Type} [Num V]
open Spec

/-! ## The exposed ports -/

theorem exposePorts_find {id : Str} {a : Nat} {used : List Str} (ps : List Str) : ∀ {out : Map Nat} {k : Str} {b : Nat},
    (exposePorts id a used ps out).find? k = some b ↔
      out.find? k = some b ∨ out.find? k = none ∧ b = a ∧ (∃ p ∈ ps, k = portName id p) ∧ k ∉ used := by
  induction ps with
  | nil => intro out k b; simp [exposePorts]
  | cons p ps ih =>
    intro out k b
    rw [exposePorts, ih, joinName_eq]
    by_cases hu : used.contains (portName id p) = true
    · rw [if_pos hu]
      have hu' : portName id p ∈ used := by simpa using hu
      constructor
      · rintro (h | ⟨h1, h2, ⟨q, hq, rfl⟩, h4⟩)
        · exact Or.inl h
        · exact Or.inr ⟨h1, h2, ⟨q, List.mem_cons_of_mem _ hq, rfl⟩, h4⟩
      · rintro (h | ⟨h1, h2, ⟨q, hq, rfl⟩, h4⟩)
        · exact Or.inl h
        · rcases List.mem_cons.1 hq with rfl | hq
          · exact absurd hu' h4
          · exact Or.inr ⟨h1, h2, ⟨q, hq, rfl⟩, h4⟩
    · rw [if_neg hu]
      have hu' : portName id p ∉ used := by simpa using hu
      rw [Map.find?_emplace]
      by_cases hk : k = portName id p
      · subst hk
        cases hf : out.find? (portName id p) with
        | none => simp +contextual [hu', eq_comm]
        | some c => simp
      · simp only [hk, if_false]
        constructor
        · rintro (h | ⟨h1, h2, ⟨q, hq, rfl⟩, h4⟩)
          · exact Or.inl h
          · exact Or.inr ⟨h1, h2, ⟨q, List.mem_cons_of_mem _ hq, rfl⟩, h4⟩
        · rintro (h | ⟨h1, h2, ⟨q, hq, rfl⟩, h4⟩)
          · exact Or.inl h
          · rcases List.mem_cons.1 hq with rfl | hq
            · exact absurd rfl hk
            · exact Or.inr ⟨h1, h2, ⟨q, hq, rfl⟩, h4⟩

theorem exposePorts_sorted {id : Str} {a : Nat} {used : List Str} (ps : List Str) : ∀ {out : Map Nat}, out.Sorted → (exposePorts id a used ps out).Sorted := by
  induction ps with
  | nil => intro out h; exact h
  | cons p ps ih =>
    intro out h
    rw [exposePorts]
    split
    · exact ih h
    · exact ih (h.emplace _ _)

/-- The unused ones among the ports `f` of the operators in the list, by name. -/
def Unused (h : Nat → Option (Op V)) (f : Core V → List Str) (used : List Str) (es : List (Str × Nat)) (k : Str) (b : Nat) : Prop :=
  ∃ id o p, (id, b) ∈ es ∧ h b = some o ∧ p ∈ f o.core ∧ k = portName id p ∧ k ∉ used

theorem unused_snoc {h : Nat → Option (Op V)} {f : Core V → List Str} {used : List Str} {es : List (Str × Nat)} {id : Str} {a : Nat} {o : Op V}
    (ho : h a = some o) (hclean : ∀ o p, p ∈ f o.core → (∃ b, h b = some o ∧ ∃ id', (id', b) ∈ es ++ [(id, a)]) → (58 : UInt8) ∉ p)
    (hnew : ∀ e ∈ es, e.1 ≠ id) {out : Map Nat} (hout : ∀ k b, out.find? k = some b ↔ Unused h f used es k b) (k : Str) (b : Nat) :
    (exposePorts id a used (f o.core) out).find? k = some b ↔ Unused h f used (es ++ [(id, a)]) k b := by
  rw [exposePorts_find, hout]
  constructor
  · rintro (⟨id', o', p, h1, h2, h3⟩ | ⟨_, rfl, ⟨p, hp, rfl⟩, h4⟩)
    · exact ⟨id', o', p, List.mem_append_left _ h1, h2, h3⟩
    · exact ⟨id, o, p, by simp, ho, hp, rfl, h4⟩
  · rintro ⟨id', o', p, h1, h2, h3, rfl, h4⟩
    rcases List.mem_append.1 h1 with h1 | h1
    · exact Or.inl ⟨id', o', p, h1, h2, h3, rfl, h4⟩
    · cases List.mem_singleton.1 h1
      rw [ho] at h2
      cases h2
      refine Or.inr ⟨?_, rfl, ⟨p, h3, rfl⟩, h4⟩
      cases hf : out.find? (portName id p) with
      | none => rfl
      | some c =>
        obtain ⟨id', o', p', g1, g2, g3, g4, _⟩ := (hout _ _).1 hf
        have c1 := hclean _ _ h3 ⟨_, ho, id, by simp⟩
        have c2 := hclean _ _ g3 ⟨_, g2, id', List.mem_append_left _ g1⟩
        exact absurd (portName_inj c1 c2 g4).1.symm (hnew _ g1)

theorem exposeOps_find {m : Mem V} {ui uo : List Str} (rest : List (Str × Nat)) :
    ∀ {done : List (Str × Nat)} {ins outs ins' outs' : Map Nat}, ((done ++ rest).map (·.1)).Nodup →
      (∀ e ∈ done ++ rest, ∀ o, m.heap e.2 = some o → CleanPorts o.core) →
      (∀ k b, ins.find? k = some b ↔ Unused m.heap (fun c => c.dataIn.keys) ui done k b) →
      (∀ k b, outs.find? k = some b ↔ Unused m.heap (fun c => c.outIds) uo done k b) → ins.Sorted → outs.Sorted →
      exposeOps m ui uo rest ins outs = .ok (ins', outs') →
      (∀ k b, ins'.find? k = some b ↔ Unused m.heap (fun c => c.dataIn.keys) ui (done ++ rest) k b) ∧
      (∀ k b, outs'.find? k = some b ↔ Unused m.heap (fun c => c.outIds) uo (done ++ rest) k b) ∧ ins'.Sorted ∧ outs'.Sorted := by
  induction rest with
  | nil =>
    intro done ins outs ins' outs' _ _ h1 h2 h3 h4 h
    cases h
    rw [List.append_nil]
    exact ⟨h1, h2, h3, h4⟩
  | cons e rest ih =>
    obtain ⟨id, a⟩ := e
    intro done ins outs ins' outs' hnd hc h1 h2 h3 h4 h
    obtain ⟨o, h5, h6⟩ := bind_eq_ok.1 h
    have ho := mop_ok.1 h5
    have hassoc : done ++ (id, a) :: rest = (done ++ [(id, a)]) ++ rest := by simp
    have hnew : ∀ e ∈ done, e.1 ≠ id := by
      intro e he heq
      rw [List.map_append, List.nodup_append] at hnd
      exact hnd.2.2 e.1 (List.mem_map.2 ⟨e, he, rfl⟩) id (by simp) heq
    have hcl : ∀ o p, (p ∈ o.core.dataIn.keys ∨ p ∈ o.core.outIds) → (∃ b, m.heap b = some o ∧ ∃ id', (id', b) ∈ done ++ [(id, a)]) → (58 : UInt8) ∉ p := by
      rintro o' p hp ⟨b, hb, id', hmem⟩
      refine hc (id', b) ?_ o' hb p ?_
      · rw [hassoc]; exact List.mem_append_left _ hmem
      · rcases hp with hp | hp
        · exact Or.inl hp
        · exact Or.inr (Or.inr hp)
    rw [hassoc] at hnd hc ⊢
    refine ih hnd hc ?_ ?_ (exposePorts_sorted _ h3) (exposePorts_sorted _ h4) h6
    · exact unused_snoc (f := fun c => c.dataIn.keys) ho (fun o' p hp hb => hcl o' p (Or.inl hp) hb) hnew h1
    · exact unused_snoc (f := fun c => c.outIds) ho (fun o' p hp hb => hcl o' p (Or.inr hp) hb) hnew h2

/-! ## The names of the ports -/

theorem nameInputs_ok (keys : List Str) : ∀ {n : Nat} {c : Core V} {pm : Map Str}, HasPorts c 1 n → c.ctrlIn = [] →
    (∀ i, pm.find? (iPort (n + i + 1)) = none) → ∃ c' pm', nameInputs keys (n + 1) c pm = .ok (c', pm') ∧ HasPorts c' 1 (n + keys.length) ∧
      c' = { c with dataIn := c'.dataIn } ∧ (∀ i k, keys[i]? = some k → pm'.find? (iPort (n + i + 1)) = some k) ∧
      ∀ q, (∀ i, i < keys.length → q ≠ iPort (n + i + 1)) → pm'.find? q = pm.find? q := by
  induction keys with
  | nil =>
    intro n c pm h _ _
    exact ⟨c, pm, rfl, h, rfl, fun i k hk => by simp at hk, fun _ _ => rfl⟩
  | cons key keys ih =>
    intro n c pm h hc hpm
    obtain ⟨c1, h1, h2, h3⟩ := addDataInput_ports h hc
    have h4 : c1.ctrlIn = [] := by rw [h3]; exact hc
    have hne : ∀ i j, i ≠ j → iPort i ≠ iPort j := fun i j hij he => hij (iPort_inj he)
    obtain ⟨c', pm', g1, g2, g3, g4, g5⟩ := ih (n := n + 1) (c := c1) (pm := pm.emplace (iPort (n + 1)) key) h2 h4 (fun i => by
      rw [Map.find?_emplace, if_neg (hne _ _ (by omega))]
      have := hpm (i + 1)
      rwa [show n + (i + 1) + 1 = n + 1 + i + 1 by omega] at this)
    refine ⟨c', pm', ?_, ?_, ?_, ?_, ?_⟩
    · unfold nameInputs
      rw [h1]
      exact g1
    · rw [List.length_cons, show n + (keys.length + 1) = n + 1 + keys.length by omega]
      exact g2
    · rw [g3, h3]
    · intro i k hk
      cases i with
      | zero =>
        simp only [List.getElem?_cons_zero, Option.some.injEq] at hk
        subst hk
        rw [g5 _ (fun i hi => hne _ _ (by omega)), Map.find?_emplace]
        have := hpm 0
        simp only [Nat.add_zero] at this
        simp [this]
      | succ i =>
        have := g4 i k (by simpa using hk)
        rwa [show n + 1 + i + 1 = n + (i + 1) + 1 by omega] at this
    · intro q hq
      rw [g5 q (fun i hi => by
        have := hq (i + 1) (by simpa using hi)
        rwa [show n + (i + 1) + 1 = n + 1 + i + 1 by omega] at this), Map.find?_emplace, if_neg]
      have := hq 0 (by simp)
      simpa using this

theorem nameOutputs_ok (keys : List Str) : ∀ {n : Nat} {c : Core V} {pm : Map Str} {c' : Core V} {pm' : Map Str}, keys.Nodup → (∀ k ∈ keys, pm.find? k = none) →
    nameOutputs keys (n + 1) c pm = (c', pm') → c' = { c with outIds := c'.outIds } ∧
      (∀ p, p ∈ c'.outIds ↔ p ∈ c.outIds ∨ ∃ i, i < keys.length ∧ p = oPort (n + i + 1)) ∧
      (∀ i k, keys[i]? = some k → pm'.find? k = some (oPort (n + i + 1))) ∧ ∀ q, q ∉ keys → pm'.find? q = pm.find? q := by
  induction keys with
  | nil =>
    intro n c pm c' pm' _ _ h
    cases h
    exact ⟨rfl, fun p => by simp, fun i k hk => by simp at hk, fun _ _ => rfl⟩
  | cons key keys ih =>
    intro n c pm c' pm' hnd hpm h
    rw [nameOutputs] at h
    have hnd' := List.nodup_cons.1 hnd
    obtain ⟨g1, g2, g3, g4⟩ := ih hnd'.2 (fun k hk => by
      rw [Map.find?_emplace, if_neg]
      · exact hpm k (List.mem_cons_of_mem _ hk)
      · rintro rfl; exact hnd'.1 hk) h
    refine ⟨?_, ?_, ?_, ?_⟩
    · rw [g1]; rfl
    · intro p
      rw [g2]
      simp only [Core.addOutput, mem_setInsert]
      constructor
      · rintro ((rfl | hp) | ⟨i, hi, rfl⟩)
        · exact Or.inr ⟨0, by simp, rfl⟩
        · exact Or.inl hp
        · exact Or.inr ⟨i + 1, by simpa using hi, by congr 1; omega⟩
      · rintro (hp | ⟨i, hi, rfl⟩)
        · exact Or.inl (Or.inr hp)
        · cases i with
          | zero => exact Or.inl (Or.inl rfl)
          | succ i => exact Or.inr ⟨i, by simpa using hi, by congr 1; omega⟩
    · intro i k hk
      cases i with
      | zero =>
        simp only [List.getElem?_cons_zero, Option.some.injEq] at hk
        subst hk
        rw [g4 _ hnd'.1, Map.find?_emplace]
        simp [hpm key (by simp)]
      | succ i =>
        have := g3 i k (by simpa using hk)
        rwa [show n + 1 + i + 1 = n + (i + 1) + 1 by omega] at this
    · intro q hq
      simp only [List.mem_cons, not_or] at hq
      rw [g4 q hq.2, Map.find?_emplace, if_neg hq.1]

/-! ## Reading operators in a growing memory -/

/-- The memory grows: what was there stays, and nothing lies beyond the end. -/
structure Grows (m m' : Mem V) : Prop where
  le : m.next ≤ m'.next
  old : ∀ a, a < m.next → m'.heap a = m.heap a
  free : ∀ a, m'.next ≤ a → m'.heap a = none

theorem Grows.trans {m m' m'' : Mem V} (h : Grows m m') (h' : Grows m' m'') : Grows m m'' :=
  ⟨Nat.le_trans h.le h'.le, fun a ha => (h'.old a (Nat.lt_of_lt_of_le ha h.le)).trans (h.old a ha), h'.free⟩

theorem Spec.Exposes.congr {ops : Map Nat} {h h' : Nat → Option (Op V)} {o : Op V} {ins outs : Map Nat} {pm : Map Str} (e : Exposes ops h o ins outs pm)
    (hh : ∀ id a, ops.find? id = some a → h' a = h a) : Exposes ops h' o ins outs pm := by
  have hc : ∀ id a p, ops.find? id = some a → connsOf h' a p = connsOf h a p := fun id a p ha => by unfold connsOf; rw [hh id a ha]
  refine ⟨e.kind, ?_, ?_, e.insSorted, e.outsSorted, e.dataIn, e.ctrlIn, e.outIds, e.mapIn, e.mapOut, e.mapOnly⟩
  · intro k a
    rw [e.inputs]
    constructor
    · rintro ⟨id, p, rfl, h1, h2, h3⟩
      exact ⟨id, p, rfl, h1, by rw [hh _ _ h1]; exact h2, fun id' b q hb => by rw [hc _ _ _ hb]; exact h3 id' b q hb⟩
    · rintro ⟨id, p, rfl, h1, h2, h3⟩
      exact ⟨id, p, rfl, h1, by rw [← hh _ _ h1]; exact h2, fun id' b q hb => by rw [← hc _ _ _ hb]; exact h3 id' b q hb⟩
  · intro k a
    rw [e.outputs]
    constructor
    · rintro ⟨id, p, rfl, h1, h2, h3⟩
      exact ⟨id, p, rfl, h1, by rw [hh _ _ h1]; exact h2, by rw [hc _ _ _ h1]; exact h3⟩
    · rintro ⟨id, p, rfl, h1, h2, h3⟩
      exact ⟨id, p, rfl, h1, by rw [← hh _ _ h1]; exact h2, by rw [← hc _ _ _ h1]; exact h3⟩

/-- The exposed ports do not depend on the connections of the pipeline itself. -/
theorem Spec.Exposes.bare {ops : Map Nat} {h : Nat → Option (Op V)} {o o' : Op V} {ins outs : Map Nat} {pm : Map Str} (e : Exposes ops h o ins outs pm)
    (hb : bare o' = bare o) : Exposes ops h o' ins outs pm :=
  ⟨by rw [bare_kind hb]; exact e.kind, e.inputs, e.outputs, e.insSorted, e.outsSorted, by rw [bare_data hb]; exact e.dataIn,
    by rw [bare_ctrl hb]; exact e.ctrlIn, by rw [bare_outIds hb]; exact e.outIds, e.mapIn, e.mapOut, e.mapOnly⟩

/-- Every pipeline at `lo` or above exposes the free ports of a table of its own, which lies between `lo` and `hi` and has no operator
in common with `ops`. -/
def PipesOK (lo : Nat) (ops : Map Nat) (h : Nat → Option (Op V)) : Prop :=
  ∀ a o ins outs pm, lo ≤ a → h a = some o → o.kind = .pipeline ins outs pm → ∃ tbl, Exposes tbl h o ins outs pm ∧
    ∀ id b, tbl.find? id = some b → lo ≤ b ∧ h b ≠ none ∧ ∀ id', ops.find? id' ≠ some b

/-- What reading a description achieves. -/
structure Reading (x : Json V) (m : Mem V) (o : Op V) (m' : Mem V) : Prop where
  grows : Grows m m'
  neat : Neat o
  alone : o.core.outputs = []
  id : HasId x o.core.id
  pipes : PipesOK m.next [] m'.heap
  pipe : ∀ ins outs pm, o.kind = .pipeline ins outs pm → ∃ tbl, Exposes tbl m'.heap o ins outs pm ∧
    ∀ id b, tbl.find? id = some b → m.next ≤ b ∧ m'.heap b ≠ none

/-- The reader does what readers do. -/
def ReadsOps (read : Json V → Mem V → Except Err (Op V × Mem V)) : Prop :=
  ∀ x m o m', (∀ a, m.next ≤ a → m.heap a = none) → read x m = .ok (o, m') → Reading x m o m'

/-- The state while a table is filled. -/
structure Filling (m0 : Mem V) (ops : Map Nat) (m : Mem V) : Prop where
  grows : Grows m0 m
  table : Table m0.next ops m
  alone : ∀ id a o, ops.find? id = some a → m.heap a = some o → o.core.outputs = []
  pipes : PipesOK m0.next ops m.heap

theorem find_has {ops : Map Nat} {id : Str} (h : ¬ ops.has id = true) : ops.find? id = none := by
  unfold Map.has at h
  cases hf : ops.find? id with
  | none => rfl
  | some x => rw [hf] at h; exact absurd rfl h

theorem Filling.skip {m0 m m' : Mem V} {ops : Map Nat} {x : Json V} {o : Op V} (h : Filling m0 ops m) (r : Reading x m o m') : Filling m0 ops m' := by
  have hlt : ∀ id a, ops.find? id = some a → a < m.next := by
    intro id a hf
    obtain ⟨_, o, ho, _⟩ := h.table.listed id a hf
    by_contra hc
    rw [h.table.free a (by omega)] at ho
    cases ho
  refine ⟨h.grows.trans r.grows, ⟨h.table.sorted, r.grows.free, ?_⟩, ?_, ?_⟩
  · intro id a hf
    obtain ⟨h1, o', h2, h3⟩ := h.table.listed id a hf
    exact ⟨h1, o', by rw [r.grows.old a (hlt id a hf)]; exact h2, h3⟩
  · intro id a o' hf ho
    rw [r.grows.old a (hlt id a hf)] at ho
    exact h.alone id a o' hf ho
  · intro a o' ins outs pm ha ho hk
    by_cases hlow : a < m.next
    · rw [r.grows.old a hlow] at ho
      obtain ⟨tbl, h1, h2⟩ := h.pipes a o' ins outs pm ha ho hk
      have hlt' : ∀ id b, tbl.find? id = some b → b < m.next := by
        intro id b hb
        by_contra hc
        exact (h2 id b hb).2.1 (h.table.free b (by omega))
      refine ⟨tbl, h1.congr fun id b hb => r.grows.old b (hlt' id b hb), fun id b hb => ?_⟩
      rw [r.grows.old b (hlt' id b hb)]
      exact h2 id b hb
    · obtain ⟨tbl, h1, h2⟩ := r.pipes a o' ins outs pm (by omega) ho hk
      refine ⟨tbl, h1, fun id b hb => ⟨Nat.le_trans h.grows.le (h2 id b hb).1, (h2 id b hb).2.1, fun id' hf => ?_⟩⟩
      have := hlt id' b hf
      have := (h2 id b hb).1
      omega

theorem Filling.add {m0 m m' : Mem V} {ops : Map Nat} {x : Json V} {o : Op V} (h : Filling m0 ops m) (r : Reading x m o m') (hn : ¬ ops.has o.core.id = true) :
    Filling m0 (ops.put o.core.id m'.next) (m'.alloc o) := by
  have hs := h.skip r
  have hnone := find_has hn
  have hfree : m'.heap m'.next = none := r.grows.free _ (Nat.le_refl _)
  have hold : ∀ a, a ≠ m'.next → (m'.alloc o).heap a = m'.heap a := fun a ha => by simp [Mem.alloc, ha]
  have hnew : (m'.alloc o).heap m'.next = some o := by simp [Mem.alloc]
  have hlt : ∀ id a, ops.find? id = some a → a ≠ m'.next := by
    intro id a hf hc
    obtain ⟨_, o, ho, _⟩ := hs.table.listed id a hf
    rw [hc, hfree] at ho
    cases ho
  refine ⟨⟨Nat.le_succ_of_le hs.grows.le, ?_, ?_⟩, ⟨hs.table.sorted.put _ _, ?_, ?_⟩, ?_, ?_⟩
  · intro a ha
    have := hs.grows.le
    rw [hold a (by omega)]
    exact hs.grows.old a ha
  · intro a ha
    simp only [Mem.alloc] at ha ⊢
    rw [if_neg (by omega)]
    exact r.grows.free a (by omega)
  · intro a ha
    simp only [Mem.alloc] at ha ⊢
    rw [if_neg (by omega)]
    exact r.grows.free a (by omega)
  · intro id a hf
    by_cases he : id = o.core.id
    · subst he
      rw [Map.find?_put_self] at hf
      cases hf
      exact ⟨hs.grows.le, o, hnew, rfl, r.neat⟩
    · rw [Map.find?_put_ne _ _ he] at hf
      obtain ⟨h1, o', h2, h3⟩ := hs.table.listed id a hf
      exact ⟨h1, o', by rw [hold a (hlt id a hf)]; exact h2, h3⟩
  · intro id a o' hf ho
    by_cases he : id = o.core.id
    · subst he
      rw [Map.find?_put_self] at hf
      cases hf
      rw [hnew] at ho
      cases ho
      exact r.alone
    · rw [Map.find?_put_ne _ _ he] at hf
      rw [hold a (hlt id a hf)] at ho
      exact hs.alone id a o' hf ho
  · intro a o' ins outs pm ha ho hk
    have notNew : ∀ b, m'.heap b ≠ none → (∀ id', ops.find? id' ≠ some b) → ∀ id', Map.find? (ops.put o.core.id m'.next) id' ≠ some b := by
      intro b hb hf id' hc
      rw [Map.find?_put] at hc
      split at hc
      · cases hc; exact hb hfree
      · exact hf id' hc
    have nn : ∀ b, m'.heap b ≠ none → b ≠ m'.next := fun b hb hc => hb (by rw [hc]; exact hfree)
    by_cases he : a = m'.next
    · subst he
      rw [hnew] at ho
      cases ho
      obtain ⟨tbl, h1, h2⟩ := r.pipe ins outs pm hk
      refine ⟨tbl, h1.congr fun id b hb => hold b (nn b (h2 id b hb).2), fun id b hb => ?_⟩
      obtain ⟨g1, g2⟩ := h2 id b hb
      refine ⟨Nat.le_trans h.grows.le g1, by rw [hold b (nn b g2)]; exact g2, notNew b g2 ?_⟩
      intro id' hf
      obtain ⟨_, o2, ho2, _⟩ := h.table.listed id' b hf
      rw [h.table.free b g1] at ho2
      cases ho2
    · rw [hold a he] at ho
      obtain ⟨tbl, h1, h2⟩ := hs.pipes a o' ins outs pm ha ho hk
      refine ⟨tbl, h1.congr fun id b hb => hold b (nn b (h2 id b hb).2.1), fun id b hb => ?_⟩
      obtain ⟨g1, g2, g3⟩ := h2 id b hb
      exact ⟨g1, by rw [hold b (nn b g2)]; exact g2, notNew b g2 g3⟩

theorem buildOps_filling {read : Json V → Mem V → Except Err (Op V × Mem V)} (hr : ReadsOps read) {m0 : Mem V} (xs : List (Json V)) :
    ∀ {ops ops' : Map Nat} {m m' : Mem V}, Filling m0 ops m → buildOps read xs ops m = .ok (ops', m') → Filling m0 ops' m' := by
  induction xs with
  | nil => intro ops ops' m m' h hb; cases hb; exact h
  | cons x xs ih =>
    intro ops ops' m m' h hb
    unfold buildOps at hb
    obtain ⟨idj, h1, hb⟩ := bind_eq_ok.1 hb
    obtain ⟨⟨o, m1⟩, h2, hb⟩ := bind_eq_ok.1 hb
    obtain ⟨id, h3, hb⟩ := bind_eq_ok.1 hb
    have r := hr x m o m1 h.table.free h2
    have : id = o.core.id := by
      have := (sub_ok h1).unique r.id
      rw [getStr_ok h3] at this
      cases this
      rfl
    subst this
    split at hb
    · exact ih (h.skip r) hb
    · rename_i hh
      exact ih (h.add r hh) hb

/-- Every description has an entry in the table. -/
theorem buildOps_has {read : Json V → Mem V → Except Err (Op V × Mem V)} (xs : List (Json V)) :
    ∀ {ops ops' : Map Nat} {m m' : Mem V}, buildOps read xs ops m = .ok (ops', m') →
      (∀ id, ops.has id = true → ops'.has id = true) ∧ ∀ x ∈ xs, ∀ id, HasId x id → ops'.has id = true := by
  induction xs with
  | nil => intro ops ops' m m' hb; cases hb; exact ⟨fun _ h => h, fun _ h => (by cases h)⟩
  | cons x xs ih =>
    intro ops ops' m m' hb
    unfold buildOps at hb
    obtain ⟨idj, h1, hb⟩ := bind_eq_ok.1 hb
    obtain ⟨⟨o, m1⟩, h2, hb⟩ := bind_eq_ok.1 hb
    obtain ⟨id, h3, hb⟩ := bind_eq_ok.1 hb
    have hxid : ∀ id', HasId x id' → id' = id := by
      intro id' hx
      have := (sub_ok h1).unique hx
      rw [getStr_ok h3] at this
      cases this
      rfl
    split at hb
    · rename_i hh
      obtain ⟨g1, g2⟩ := ih hb
      refine ⟨g1, fun y hy id' hid => ?_⟩
      rcases List.mem_cons.1 hy with rfl | hy
      · rw [hxid id' hid]; exact g1 _ hh
      · exact g2 y hy id' hid
    · obtain ⟨g1, g2⟩ := ih hb
      have key : ∀ id', id' = id ∨ ops.has id' = true → ops'.has id' = true := by
        intro id' hid
        apply g1
        rw [Map.has_iff, Map.mem_keys_put]
        rcases hid with hid | hid
        · exact Or.inl hid
        · exact Or.inr ((Map.has_iff _ _).1 hid)
      refine ⟨fun id' hid => key id' (Or.inr hid), fun y hy id' hid => ?_⟩
      rcases List.mem_cons.1 hy with rfl | hy
      · exact key id' (Or.inl (hxid id' hid))
      · exact g2 y hy id' hid

/-! ## Pipelines -/

theorem mem_of_find {ops : Map Nat} (hs : ops.Sorted) {id : Str} {a : Nat} : ops.find? id = some a ↔ (id, a) ∈ ops :=
  ⟨fun h => find?_mem h, fun h => by
    induction ops with
    | nil => cases h
    | cons e ops ih =>
      rcases List.mem_cons.1 h with rfl | h
      · simp
      · have : e.1 ≠ id := strLt_ne (hs.head_lt (List.mem_map.2 ⟨_, h, rfl⟩))
        rw [Map.find?_cons, if_neg this]
        exact ih hs.tail h⟩

/-- What the constructor of Pipeline does. -/
theorem newPipeline_ok {read : Json V → Mem V → Except Err (Op V × Mem V)} (hr : ReadsOps read) {id : Str} {prog : Json V} {m m' : Mem V} {o : Op V}
    (hfree : ∀ a, m.next ≤ a → m.heap a = none) (h : newPipeline read id prog m = .ok (o, m')) :
    ∃ os cs ops ins outs pm ws, Member prog b!"operators" os ∧ Member prog b!"connections" cs ∧
      (∀ k, ops.has k = true ↔ ∃ x ∈ os.items, HasId x k) ∧ Table m.next ops m' ∧
      List.Forall₂ (Asks ops m'.heap) cs.items ws ∧ (∀ k a p, ops.find? k = some a → connsOf m'.heap a p = cablesFrom ws a p) ∧
      Exposes ops m'.heap o ins outs pm ∧ o.core.id = id ∧ o.core.outputs = [] ∧ o.core.toProcess = [] ∧ Neat o ∧
      Grows m m' ∧ PipesOK m.next ops m'.heap := by
  unfold newPipeline at h
  obtain ⟨os, h1, h⟩ := bind_eq_ok.1 h
  obtain ⟨⟨ops, m1⟩, h2, h⟩ := bind_eq_ok.1 h
  obtain ⟨cs, h3, h⟩ := bind_eq_ok.1 h
  obtain ⟨⟨m2, ui, uo⟩, h4, h⟩ := bind_eq_ok.1 h
  obtain ⟨⟨ins, outs⟩, h5, h⟩ := bind_eq_ok.1 h
  obtain ⟨⟨c, pm1⟩, h6, h⟩ := bind_eq_ok.1 h
  dsimp only at h2 h4 h5 h6 h
  cases h7 : nameOutputs outs.keys 1 c pm1 with
  | mk c' pm =>
  rw [h7] at h
  cases h
  have hfill : Filling m ops m1 := by
    refine buildOps_filling hr os.items (m0 := m) (ops := []) ?_ h2
    exact ⟨⟨Nat.le_refl _, fun _ _ => rfl, hfree⟩, ⟨.nil, hfree, fun _ _ h => (by cases h)⟩, fun _ _ _ h => (by cases h),
      fun a o ins outs pm ha ho => by rw [hfree a ha] at ho; cases ho⟩
  obtain ⟨ws, v1, v2, v3, v4, v5, v6⟩ := pipeConns_wires cs.items hfill.table h4
  have hclean : ∀ e ∈ [] ++ ops, ∀ o, m'.heap e.2 = some o → CleanPorts o.core := by
    intro e he o ho
    rw [List.nil_append] at he
    obtain ⟨_, o', h8, _, h9⟩ := v3.listed e.1 e.2 ((mem_of_find v3.sorted).2 he)
    rw [ho] at h8
    cases h8
    exact h9.clean
  have hnd : ((([] : List (Str × Nat)) ++ ops).map (·.1)).Nodup := by
    have := v3.sorted
    unfold Map.Sorted at this
    exact List.Pairwise.imp (fun h => strLt_ne h) this
  obtain ⟨e1, e2, e3, e4⟩ := exposeOps_find ops (done := []) hnd hclean (ins := []) (outs := [])
    (fun k b => by simp [Unused]) (fun k b => by simp [Unused]) .nil .nil h5
  rw [List.nil_append] at e1 e2
  have hbase : ∀ k a, ops.find? k = some a → ∀ p, connsOf m'.heap a p = cablesFrom ws a p := by
    intro k a hk p
    rw [v2.conns]
    obtain ⟨_, o', h8, _, _⟩ := hfill.table.listed k a hk
    have h9 := hfill.alone k a o' hk h8
    simp [connsOf, h8, h9]
  have hws : ∀ w ∈ ws, (∃ k, ops.find? k = some w.src) ∧ ∃ k o, ops.find? k = some w.conn.target ∧ m'.heap w.conn.target = some o ∧
      (w.conn.port ∈ o.core.dataIn.keys ∨ w.conn.port ∈ o.core.ctrlIn.keys) ∧ ∃ o1, m'.heap w.src = some o1 ∧ w.port ∈ o1.core.outIds := by
    have key : ∀ (js : List (Json V)) (ws : List Cable), List.Forall₂ (Asks ops m1.heap) js ws → ∀ w ∈ ws, ∃ j, Asks ops m1.heap j w := by
      intro js ws hf
      induction hf with
      | nil => intro w hw; cases hw
      | cons h _ ih =>
        intro w hw
        rcases List.mem_cons.1 hw with rfl | hw
        · exact ⟨_, h⟩
        · exact ih w hw
    intro w hw
    obtain ⟨j, hj⟩ := key _ _ v1 w hw
    have hj' := v2.asks' hj
    obtain ⟨k, _, hk⟩ := hj'.src
    obtain ⟨k', _, hk'⟩ := hj'.dst
    obtain ⟨o', _, h8, _, h9, _⟩ := hj'.inp
    obtain ⟨o1, _, h10, _, h11, _⟩ := hj'.out
    exact ⟨⟨k, hk⟩, k', o', hk', h8, h9, o1, h10, h11⟩
  have cleanOf : ∀ k a o, ops.find? k = some a → m'.heap a = some o → CleanPorts o.core := by
    intro k a o hk ho
    exact hclean (k, a) (by rw [List.nil_append]; exact (mem_of_find v3.sorted).1 hk) o ho
  have hui : ∀ k a o p, ops.find? k = some a → m'.heap a = some o → p ∈ o.core.dataIn.keys →
      (portName k p ∈ ui ↔ ∃ k' b q, ops.find? k' = some b ∧ (⟨a, p⟩ : Conn) ∈ connsOf m'.heap b q) := by
    intro k a o p hk ho hp
    rw [v5]
    constructor
    · rintro (hc | ⟨w, hw, k', g1, g2⟩)
      · cases hc
      · obtain ⟨⟨k1, g3⟩, k2, o2, g4, g5, g6, _⟩ := hws w hw
        have c2 : (58 : UInt8) ∉ w.conn.port := by
          refine cleanOf k2 _ o2 g4 g5 _ ?_
          rcases g6 with g6 | g6
          · exact Or.inl g6
          · exact Or.inr (Or.inl g6)
        obtain ⟨rfl, hpq⟩ := portName_inj (cleanOf k a o hk ho p (Or.inl hp)) c2 g2
        rw [hk] at g1
        refine ⟨k1, w.src, w.port, g3, ?_⟩
        rw [hbase k1 _ g3, cablesFrom, List.mem_filterMap]
        refine ⟨w, hw, ?_⟩
        rw [if_pos ⟨rfl, rfl⟩]
        cases hcn : w.conn with
        | mk tg pt =>
          rw [hcn] at g1 hpq
          cases g1
          cases hpq
          rfl
    · rintro ⟨k', b, q, g1, g2⟩
      rw [hbase k' _ g1, cablesFrom, List.mem_filterMap] at g2
      obtain ⟨w, hw, g3⟩ := g2
      split at g3
      · cases g3' : w.conn with
        | mk tg pt =>
          rw [g3'] at g3
          cases g3
          exact Or.inr ⟨w, hw, k, by rw [g3']; exact hk, by rw [g3']⟩
      · cases g3
  have huo : ∀ k a o p, ops.find? k = some a → m'.heap a = some o → p ∈ o.core.outIds → (portName k p ∈ uo ↔ connsOf m'.heap a p ≠ []) := by
    intro k a o p hk ho hp
    rw [v6, hbase k a hk]
    constructor
    · rintro (hc | ⟨w, hw, k', g1, g2⟩)
      · cases hc
      · obtain ⟨_, _, _, _, _, _, o1, g5, g6⟩ := hws w hw
        obtain ⟨rfl, rfl⟩ := portName_inj (cleanOf k a o hk ho p (Or.inr (Or.inr hp))) (cleanOf k' _ o1 g1 g5 _ (Or.inr (Or.inr g6))) g2
        rw [hk] at g1
        cases g1
        intro hnil
        have : w.conn ∈ cablesFrom ws w.src w.port := by
          rw [cablesFrom, List.mem_filterMap]
          exact ⟨w, hw, by rw [if_pos ⟨rfl, rfl⟩]⟩
        rw [hnil] at this
        cases this
    · intro hne
      obtain ⟨cn, hcn⟩ := List.exists_mem_of_ne_nil _ hne
      rw [cablesFrom, List.mem_filterMap] at hcn
      obtain ⟨w, hw, g3⟩ := hcn
      split at g3
      · rename_i hw2
        exact Or.inr ⟨w, hw, k, by rw [hw2.1]; exact hk, by rw [hw2.2]⟩
      · cases g3
  have insFree : ∀ k a, ins.find? k = some a ↔ ∃ id p, k = portName id p ∧ FreeInput ops m'.heap id a p := by
    intro k a
    rw [e1]
    constructor
    · rintro ⟨id, o, p, g1, g2, g3, rfl, g4⟩
      have hk := (mem_of_find v3.sorted).2 g1
      refine ⟨id, p, rfl, hk, ⟨o, g2, g3⟩, fun id' b q hb hc => ?_⟩
      exact g4 ((hui id a o p hk g2 g3).2 ⟨id', b, q, hb, hc⟩)
    · rintro ⟨id, p, rfl, hk, ⟨o, g2, g3⟩, g4⟩
      refine ⟨id, o, p, (mem_of_find v3.sorted).1 hk, g2, g3, rfl, fun hc => ?_⟩
      obtain ⟨k', b, q, g5, g6⟩ := (hui id a o p hk g2 g3).1 hc
      exact g4 k' b q g5 g6
  have outsFree : ∀ k a, outs.find? k = some a ↔ ∃ id p, k = portName id p ∧ FreeOutput ops m'.heap id a p := by
    intro k a
    rw [e2]
    constructor
    · rintro ⟨id, o, p, g1, g2, g3, rfl, g4⟩
      have hk := (mem_of_find v3.sorted).2 g1
      refine ⟨id, p, rfl, hk, ⟨o, g2, g3⟩, ?_⟩
      by_contra hc
      exact g4 ((huo id a o p hk g2 g3).2 hc)
    · rintro ⟨id, p, rfl, hk, ⟨o, g2, g3⟩, g4⟩
      refine ⟨id, o, p, (mem_of_find v3.sorted).1 hk, g2, g3, rfl, fun hc => ?_⟩
      exact (huo id a o p hk g2 g3).1 hc g4
  have colon : ∀ k, k ∈ outs.keys → (58 : UInt8) ∈ k := by
    intro k hk
    rw [← Map.find?_isSome_iff] at hk
    cases hf : outs.find? k with
    | none => rw [hf] at hk; cases hk
    | some a =>
      obtain ⟨id, p, rfl, _⟩ := (outsFree k a).1 hf
      exact portName_mem _ _
  have hports : HasPorts (Core.new id : Core V) 1 0 := by
    refine ⟨.nil, ?_, fun k _ _ => by omega⟩
    intro p
    simp only [Core.new, Map.keys, List.map_nil, List.not_mem_nil, false_iff]
    rintro ⟨k, _, _, _⟩; omega
  obtain ⟨c1, pm2, n1, n2, n3, n4, n5⟩ := nameInputs_ok (V := V) ins.keys (n := 0) (c := Core.new id) (pm := []) hports rfl (fun _ => rfl)
  rw [n1] at h6
  cases h6
  have houtNone : ∀ k ∈ outs.keys, pm1.find? k = none := by
    intro k hk
    rw [n5 k]
    · rfl
    · intro i _ he
      rw [he] at hk
      exact iPort_clean _ (colon _ hk)
  obtain ⟨p1, p2, p3, p4⟩ := nameOutputs_ok (V := V) outs.keys (n := 0) (List.Pairwise.imp (fun h => strLt_ne h) e4) houtNone h7
  have hdata : c'.dataIn = c.dataIn := by rw [p1]
  have hctrl : c'.ctrlIn = [] := by rw [p1, n3]; rfl
  have hconnOut : c'.outputs = [] := by rw [p1, n3]; rfl
  have houtIds : ∀ p, p ∈ c'.outIds ↔ ∃ n, n < outs.keys.length ∧ p = oPort (n + 1) := by
    intro p
    have hc0 : c.outIds = [] := by rw [n3]; rfl
    rw [p2, hc0]
    simp
  have hdataKeys : ∀ p, p ∈ c'.dataIn.keys ↔ ∃ n, n < ins.keys.length ∧ p = iPort (n + 1) := by
    intro p
    rw [hdata, n2.keys, Nat.zero_add]
    constructor
    · rintro ⟨k, g1, g2, rfl⟩
      exact ⟨k - 1, by omega, by congr 1; omega⟩
    · rintro ⟨k, g1, rfl⟩
      exact ⟨k + 1, by omega, by omega, rfl⟩
  refine ⟨os, cs, ops, ins, outs, pm, ws, at_ok h1, at_ok h3, ?_, v3, v1.imp (fun _ _ ha => v2.asks' ha), fun k a p hk => hbase k a hk p, ?_,
    ?_, hconnOut, ?_, ?_, ?_, ?_⟩
  · intro k
    constructor
    · intro hk
      rcases buildOps_ids os.items h2 k hk with hc | hx
      · cases hc
      · exact hx
    · rintro ⟨x, hx, hid⟩
      exact (buildOps_has os.items h2).2 x hx k hid
  · refine ⟨rfl, insFree, outsFree, e3, e4, hdataKeys, hctrl, houtIds, ?_, ?_, ?_⟩
    · intro n k hk
      rw [p4]
      · have := n4 n k hk
        rwa [Nat.zero_add] at this
      · intro hc
        exact iPort_clean _ (colon _ hc)
    · intro n k hk
      have := p3 n k hk
      rwa [Nat.zero_add] at this
    · intro q k hk
      by_cases hq : q ∈ outs.keys
      · obtain ⟨n, hn, hg⟩ := List.getElem_of_mem hq
        have hg' : outs.keys[n]? = some q := by rw [List.getElem?_eq_getElem hn, hg]
        have := p3 n q hg'
        rw [hk, Nat.zero_add] at this
        exact Or.inr ⟨n, hg', Option.some.inj this⟩
      · rw [p4 q hq] at hk
        by_cases hi : ∃ i, i < ins.keys.length ∧ q = iPort (0 + i + 1)
        · obtain ⟨i, hi, rfl⟩ := hi
          have := n4 i _ (List.getElem?_eq_getElem hi)
          rw [hk] at this
          exact Or.inl ⟨i, by rw [Nat.zero_add], by rw [List.getElem?_eq_getElem hi, Option.some.inj this]⟩
        · rw [n5 q fun i hlt he => hi ⟨i, hlt, he⟩] at hk
          cases hk
  · change c'.id = id
    rw [p1, n3]
    rfl
  · change c'.toProcess = []
    rw [p1, n3]
    rfl
  · refine ⟨fun i q hk => (by cases hk), ?_, ?_, ?_, ?_, ?_⟩
    · rintro p (hp | hp | hp)
      · obtain ⟨n, _, rfl⟩ := (hdataKeys p).1 hp
        exact iPort_clean _
      · dsimp only at hp
        rw [hctrl] at hp
        cases hp
      · obtain ⟨n, _, rfl⟩ := (houtIds p).1 hp
        exact oPort_clean _
    · dsimp only
      rw [hdata]
      exact n2.sorted
    · dsimp only
      rw [hctrl]
      exact .nil
    · dsimp only
      rw [hconnOut]
      exact .nil
    · intro p cs hf
      dsimp only at hf
      rw [hconnOut] at hf
      cases hf
  · refine ⟨by rw [v4]; exact hfill.grows.le, ?_, v3.free⟩
    intro a ha
    rw [v2.rest, hfill.grows.old a ha]
    intro k hk
    have := (hfill.table.listed k a hk).1
    omega
  · intro a o' ins' outs' pm' ha ho hk
    obtain ⟨o0, g1, g2⟩ := v2.back ho
    obtain ⟨tbl, g3, g4⟩ := hfill.pipes a o0 ins' outs' pm' ha g1 (by rw [← bare_kind g2]; exact hk)
    refine ⟨tbl, (g3.congr fun k b hb => v2.rest b (g4 k b hb).2.2).bare g2, fun k b hb => ?_⟩
    obtain ⟨g5, g6, g7⟩ := g4 k b hb
    exact ⟨g5, by rw [v2.rest b g7]; exact g6, g7⟩

/-- Reading descriptions with pipelines nested to any depth. -/
theorem readOp_reader (junk : Junk V) (fuel : Nat) : ReadsOps (readOp junk fuel) := by
  induction fuel with
  | zero => intro x m o m' _ h; cases h
  | succ fuel ih =>
    intro x m o m' hfree h
    by_cases hp : HasType x b!"Pipeline"
    · unfold readOp at h
      obtain ⟨tj, h1, h⟩ := bind_eq_ok.1 h
      obtain ⟨t, h2, h⟩ := bind_eq_ok.1 h
      have : t = b!"Pipeline" := by
        have := (at_ok h1).unique hp
        rw [getStr_ok h2] at this
        cases this
        rfl
      rw [if_pos this] at h
      obtain ⟨idj, h3, h⟩ := bind_eq_ok.1 h
      obtain ⟨id, h4, h⟩ := bind_eq_ok.1 h
      obtain ⟨prog, h5, h⟩ := bind_eq_ok.1 h
      obtain ⟨os, cs, ops, ins, outs, pm, ws, _, _, _, t1, _, _, t2, t3, t4, _, t5, t6, t7⟩ := newPipeline_ok ih hfree h
      have hid : HasId x id := by
        have := at_ok h3
        rw [getStr_ok h4] at this
        exact this
      refine ⟨t6, t5, t4, by rw [t3]; exact hid, ?_, ?_⟩
      · intro a o' ins' outs' pm' ha ho hk
        obtain ⟨tbl, g1, g2⟩ := t7 a o' ins' outs' pm' ha ho hk
        exact ⟨tbl, g1, fun k b hb => ⟨(g2 k b hb).1, (g2 k b hb).2.1, fun _ h => (by cases h)⟩⟩
      · intro ins' outs' pm' hk
        rw [t2.kind] at hk
        cases hk
        refine ⟨ops, t2, fun k b hb => ?_⟩
        obtain ⟨g1, o', g2, _⟩ := t1.listed k b hb
        exact ⟨g1, by rw [g2]; simp⟩
    · obtain ⟨t, _, h1, rfl⟩ := readOp_simple h hp
      obtain ⟨hb, hid⟩ := simpleOpOf_built h1
      refine ⟨⟨Nat.le_refl _, fun _ _ => rfl, hfree⟩, hb.neat, hb.noOutputs, hid, ?_, ?_⟩
      · intro a o' ins outs pm ha ho
        rw [hfree a ha] at ho
        cases ho
      · intro ins outs pm hk
        have := hb.new.simple
        unfold Simple at this
        rw [hk] at this
        exact this.elim

/-! ## Programs -/

/-- What creating a program achieves. -/
theorem initWith_wired {junk : Junk V} {json : Str} {j : Json V} {P : Prog V} (h : Prog.initWith junk json j = .ok P) :
    P = Prog.empty json ∨ ∃ os cs ws m, Member j b!"operators" os ∧ Member j b!"connections" cs ∧ P.st = m.st ∧
      (∀ k, P.ops.has k = true ↔ ∃ x ∈ os.items, HasId x k) ∧ Table 0 P.ops m ∧ List.Forall₂ (Asks P.ops P.st.heap) cs.items ws ∧
      (∀ k a p, P.ops.find? k = some a → connsOf P.st.heap a p = cablesFrom ws a p) ∧ PipesOK 0 P.ops P.st.heap := by
  obtain ⟨entry, os, ops, m, cs, m', a, o, _, _, hos, hb, hcs, hc, _, _, h | h⟩ := initWith_ok h
  · obtain ⟨_, rfl⟩ := h
    right
    have hfill : Filling (⟨fun _ => none, 0⟩ : Mem V) ops m := by
      refine buildOps_filling (readOp_reader junk _) os.items (ops := []) ?_ hb
      exact ⟨⟨Nat.le_refl _, fun _ _ => rfl, fun _ _ => rfl⟩, ⟨.nil, fun _ _ => rfl, fun _ _ h => (by cases h)⟩, fun _ _ _ h => (by cases h),
        fun a o ins outs pm ha ho => by cases ho⟩
    obtain ⟨ws, v1, v2, v3, v4⟩ := makeConns_wires cs.items hfill.table hc
    refine ⟨os, cs, ws, m', hos, hcs, rfl, ?_, v3, v1.imp (fun _ _ ha => v2.asks' ha), ?_, ?_⟩
    · intro k
      constructor
      · intro hk
        rcases buildOps_ids os.items hb k hk with hc | hx
        · cases hc
        · exact hx
      · rintro ⟨x, hx, hid⟩
        exact (buildOps_has os.items hb).2 x hx k hid
    · intro k a p hk
      have := v2.conns a p
      obtain ⟨_, o', h8, _, _⟩ := hfill.table.listed k a hk
      have h9 := hfill.alone k a o' hk h8
      rw [show connsOf m.heap a p = [] by simp [connsOf, h8, h9], List.nil_append] at this
      exact this
    · intro a o' ins' outs' pm' ha ho hk
      obtain ⟨o0, g1, g2⟩ := v2.back ho
      obtain ⟨tbl, g3, g4⟩ := hfill.pipes a o0 ins' outs' pm' ha g1 (by rw [← bare_kind g2]; exact hk)
      refine ⟨tbl, (g3.congr fun k b hb => v2.rest b (g4 k b hb).2.2).bare g2, fun k b hb => ?_⟩
      obtain ⟨g5, g6, g7⟩ := g4 k b hb
      exact ⟨g5, by rw [show (m'.st : St V).heap b = m'.heap b from rfl, v2.rest b g7]; exact g6, g7⟩
  · exact Or.inl h.2

end Rtbot
