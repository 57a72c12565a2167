import Verif.Lemmas.Pipeline
import Verif.Lemmas.Wrap
import Verif.Lemmas.Sync

set_option linter.unusedSectionVars false

/-! # The inner operators of the pipelines of created programs -/

namespace Rtbot
variable {V : Type} [Num V]
open Spec

/-- The operators between `l` and `a` belong to the pipeline at `a`, as far as operators from `lo` on are concerned. -/
structure Fence (lo : Nat) (h : Nat → Option (Op V)) (a l : Nat) (ins : Map Nat) : Prop where
  low : lo ≤ l
  le : l ≤ a
  inputs : ∀ k t, ins.find? k = some t → l ≤ t ∧ t < a
  closed : ∀ b c, l ≤ b → b < a → Edge h b c → l ≤ c ∧ c < a
  entered : ∀ b c, lo ≤ b → l ≤ c → c < a → Edge h b c → l ≤ b ∧ b ≤ a
  conns : ∀ q c, c ∈ connsOf h a q → ¬ (l ≤ c.target ∧ c.target < a)

/-- The cells from `lo` on are a closed world, in which every pipeline has its own operators; those in `T` belong to no pipeline. -/
structure Shut (lo : Nat) (T : Nat → Prop) (m : Mem V) : Prop where
  ground : ∀ b c, lo ≤ b → Edge m.heap b c → lo ≤ c ∧ c < m.next
  fine : ∀ b o, lo ≤ b → m.heap b = some o → Neat o ∧ o.core.toProcess = []
  pipes : ∀ a o ins outs pm, lo ≤ a → m.heap a = some o → o.kind = .pipeline ins outs pm → ∃ l, Fence lo m.heap a l ins ∧ ∀ t, T t → ¬ (l ≤ t ∧ t < a)

theorem Shut.mono {lo : Nat} {T T' : Nat → Prop} {m : Mem V} (h : Shut lo T m) (ht : ∀ t, T' t → T t) : Shut lo T' m :=
  ⟨h.ground, h.fine, fun a o ins outs pm ha ho hk => by
    obtain ⟨l, g1, g2⟩ := h.pipes a o ins outs pm ha ho hk
    exact ⟨l, g1, fun t h' => g2 t (ht t h')⟩⟩

theorem edge_here {h : Nat → Option (Op V)} {b c : Nat} (e : Edge h b c) : h b ≠ none := by
  obtain ⟨o, ho, _⟩ := e
  rw [ho]
  simp

theorem edge_congr {h h' : Nat → Option (Op V)} {b c : Nat} (hb : h' b = h b) : Edge h' b c ↔ Edge h b c := by
  unfold Edge
  rw [hb]

/-- After reading one more description. -/
theorem Shut.skip {lo : Nat} {T T' : Nat → Prop} {m m' : Mem V} (h : Shut lo T m) (hlo : lo ≤ m.next) (g : Grows m m') (hT : ∀ t, T t → t < m.next)
    (h' : Shut m.next T' m') (hT' : ∀ t, T' t → m.next ≤ t) : Shut lo (fun t => T t ∨ T' t) m' := by
  have old : ∀ {b c}, b < m.next → (Edge m'.heap b c ↔ Edge m.heap b c) := fun hb => edge_congr (g.old _ hb)
  refine ⟨?_, ?_, ?_⟩
  · intro b c hb e
    by_cases hlt : b < m.next
    · have := h.ground b c hb ((old hlt).1 e)
      have := g.le
      omega
    · have := h'.ground b c (by omega) e
      omega
  · intro b o hb ho
    by_cases hlt : b < m.next
    · rw [g.old b hlt] at ho
      exact h.fine b o hb ho
    · exact h'.fine b o (by omega) ho
  · intro a o ins outs pm ha ho hk
    by_cases hlt : a < m.next
    · rw [g.old a hlt] at ho
      obtain ⟨l, f, ft⟩ := h.pipes a o ins outs pm ha ho hk
      refine ⟨l, ⟨f.low, f.le, f.inputs, ?_, ?_, ?_⟩, ?_⟩
      · intro b c h1 h2 e
        exact f.closed b c h1 h2 ((old (by omega)).1 e)
      · intro b c h1 h2 h3 e
        by_cases hb : b < m.next
        · exact f.entered b c h1 h2 h3 ((old hb).1 e)
        · have := h'.ground b c (by omega) e
          omega
      · intro q c hc
        refine f.conns q c ?_
        unfold connsOf at hc ⊢
        rw [g.old a hlt] at hc
        exact hc
      · rintro t (ht | ht)
        · exact ft t ht
        · have := hT' t ht
          omega
    · obtain ⟨l, f, ft⟩ := h'.pipes a o ins outs pm (by omega) ho hk
      have := f.low
      refine ⟨l, ⟨by omega, f.le, f.inputs, f.closed, ?_, f.conns⟩, ?_⟩
      · intro b c h1 h2 h3 e
        by_cases hb : b < m.next
        · have := h.ground b c h1 ((old hb).1 e)
          omega
        · exact f.entered b c (by omega) h2 h3 e
      · rintro t (ht | ht)
        · have := hT t ht
          omega
        · exact ft t ht

/-- After placing the operator that was read. -/
theorem Shut.add {lo lo' : Nat} {T : Nat → Prop} {m : Mem V} {o : Op V} (hfree : ∀ a, m.next ≤ a → m.heap a = none) (hle : lo' ≤ m.next) (hlo : lo ≤ lo')
    (hT : ∀ t, T t → t < lo')
    (h : Shut lo (fun t => T t ∨ t ∈ nexts o) m) (h' : ∀ b c, lo' ≤ b → Edge m.heap b c → lo' ≤ c ∧ c < m.next) (hlow : ∀ b c, lo ≤ b → b < lo' → Edge m.heap b c → c < lo')
    (hn : ∀ t ∈ nexts o, lo' ≤ t ∧ t < m.next) (hneat : Neat o) (hidle : o.core.toProcess = []) (halone : o.core.outputs = []) :
    Shut lo (fun t => T t ∨ t = m.next) (m.alloc o) := by
  have hold : ∀ a, a ≠ m.next → (m.alloc o).heap a = m.heap a := fun a ha => by simp [Mem.alloc, ha]
  have hnew : (m.alloc o).heap m.next = some o := by simp [Mem.alloc]
  have hnext : (m.alloc o).next = m.next + 1 := rfl
  have old : ∀ {b c}, b ≠ m.next → (Edge (m.alloc o).heap b c ↔ Edge m.heap b c) := fun hb => edge_congr (hold _ hb)
  have new : ∀ {c}, Edge (m.alloc o).heap m.next c → lo' ≤ c ∧ c < m.next := by
    rintro c ⟨o', ho', hc⟩
    rw [hnew] at ho'
    cases ho'
    exact hn c hc
  have new' : ∀ {c}, Edge (m.alloc o).heap m.next c → c ∈ nexts o := by
    rintro c ⟨o', ho', hc⟩
    rw [hnew] at ho'
    cases ho'
    exact hc
  refine ⟨?_, ?_, ?_⟩
  · intro b c hb e
    rw [hnext]
    by_cases hbn : b = m.next
    · subst hbn
      have := new e
      omega
    · have := h.ground b c hb ((old hbn).1 e)
      omega
  · intro b o' hb ho
    by_cases hbn : b = m.next
    · subst hbn
      rw [hnew] at ho
      cases ho
      exact ⟨hneat, hidle⟩
    · rw [hold b hbn] at ho
      exact h.fine b o' hb ho
  · intro a o' ins outs pm ha ho hk
    by_cases han : a = m.next
    · subst han
      rw [hnew] at ho
      cases ho
      refine ⟨lo', ⟨hlo, hle, fun k t ht => hn t ?_, ?_, ?_, ?_⟩, ?_⟩
      · simp only [nexts, hk, List.mem_append]
        exact Or.inr (List.mem_map.2 ⟨_, find?_mem ht, rfl⟩)
      · intro b c h1 h2 e
        exact h' b c h1 ((old (by omega)).1 e)
      · intro b c h1 h2 h3 e
        by_cases hbn : b = m.next
        · omega
        · have e' := (old hbn).1 e
          have : b < m.next := by
            by_contra hc
            exact edge_here e' (hfree b (by omega))
          by_cases hb : b < lo'
          · have := hlow b c h1 hb e'
            omega
          · omega
      · intro q c hc
        unfold connsOf at hc
        simp [hnew, halone, Map.find?] at hc
      · rintro t (ht | ht)
        · have := hT t ht
          omega
        · omega
    · rw [hold a han] at ho
      have hlt : a < m.next := by
        by_contra hc
        rw [hfree a (by omega)] at ho
        cases ho
      obtain ⟨l, f, ft⟩ := h.pipes a o' ins outs pm ha ho hk
      refine ⟨l, ⟨f.low, f.le, f.inputs, ?_, ?_, ?_⟩, ?_⟩
      · intro b c h1 h2 e
        exact f.closed b c h1 h2 ((old (by omega)).1 e)
      · intro b c h1 h2 h3 e
        by_cases hbn : b = m.next
        · subst hbn
          exact absurd ⟨h2, h3⟩ (ft c (Or.inr (new' e)))
        · exact f.entered b c h1 h2 h3 ((old hbn).1 e)
      · intro q c hc
        refine f.conns q c ?_
        unfold connsOf at hc ⊢
        rw [hold a han] at hc
        exact hc
      · rintro t (ht | rfl)
        · exact ft t (Or.inl ht)
        · omega

/-- Listed in the table. -/
def InTable (ops : Map Nat) (t : Nat) : Prop := ∃ id, ops.find? id = some t

theorem asked {ops : Map Nat} {h : Nat → Option (Op V)} {ws : List Cable} {js : List (Json V)} (ha : List.Forall₂ (Asks ops h) js ws) :
    ∀ w ∈ ws, InTable ops w.conn.target := by
  induction ha with
  | nil => intro w hw; cases hw
  | cons h _ ih =>
    intro w hw
    rcases List.mem_cons.1 hw with rfl | hw
    · obtain ⟨k, _, hk⟩ := h.dst
      exact ⟨k, hk⟩
    · exact ih w hw

theorem wires_edge {lo : Nat} {ops : Map Nat} {m m' : Mem V} {ws : List Cable} {js : List (Json V)} (w : Wires ops m.heap m'.heap ws) (t : Table lo ops m')
    (ha : List.Forall₂ (Asks ops m.heap) js ws) {b c : Nat} (e : Edge m'.heap b c) : Edge m.heap b c ∨ InTable ops b ∧ InTable ops c := by
  by_cases hb : InTable ops b
  · obtain ⟨id, hid⟩ := hb
    obtain ⟨_, o', ho', _, hneat⟩ := t.listed id b hid
    obtain ⟨o2, ho2, hc⟩ := e
    rw [ho'] at ho2
    cases ho2
    obtain ⟨o0, h0, hbare⟩ := w.back ho'
    rcases List.mem_append.1 hc with hc | hc
    · obtain ⟨⟨p, cs⟩, hp, hc⟩ := List.mem_flatMap.1 hc
      obtain ⟨x, hx, rfl⟩ := List.mem_map.1 hc
      have hf := Sync.find_of_mem hneat.outs hp
      have hx' : x ∈ connsOf m'.heap b p := by simp only [connsOf, ho', hf]; exact hx
      rw [w.conns] at hx'
      rcases List.mem_append.1 hx' with hx' | hx'
      · refine Or.inl ⟨o0, h0, List.mem_append.2 (Or.inl ?_)⟩
        simp only [connsOf, h0] at hx'
        split at hx'
        · cases hx'
        · rename_i cs0 hcs0
          exact List.mem_flatMap.2 ⟨_, find?_mem hcs0, List.mem_map.2 ⟨x, hx', rfl⟩⟩
      · right
        refine ⟨⟨id, hid⟩, ?_⟩
        obtain ⟨y, hy, hy'⟩ := List.mem_filterMap.1 hx'
        split at hy'
        · cases hy'
          exact asked ha y hy
        · cases hy'
    · refine Or.inl ⟨o0, h0, List.mem_append.2 (Or.inr ?_)⟩
      rw [← bare_kind hbare]
      exact hc
  · left
    have := w.rest b fun id h => hb ⟨id, h⟩
    exact (edge_congr this).1 e

/-- After making the connections among the operators of the table. -/
theorem Shut.wires {lo : Nat} {ops : Map Nat} {m m' : Mem V} {ws : List Cable} {js : List (Json V)} (h : Shut lo (InTable ops) m) (t0 : Table lo ops m)
    (w : Wires ops m.heap m'.heap ws) (t : Table lo ops m') (hn : m'.next = m.next) (ha : List.Forall₂ (Asks ops m.heap) js ws) : Shut lo (InTable ops) m' := by
  have inside : ∀ t, InTable ops t → lo ≤ t ∧ t < m.next := by
    rintro t ⟨id, hid⟩
    obtain ⟨h1, o, h2, _⟩ := t0.listed id t hid
    refine ⟨h1, ?_⟩
    by_contra hc
    rw [t0.free t (by omega)] at h2
    cases h2
  refine ⟨?_, ?_, ?_⟩
  · intro b c hb e
    rw [hn]
    rcases wires_edge w t ha e with e | ⟨_, e⟩
    · exact h.ground b c hb e
    · exact inside c e
  · intro b o hb ho
    obtain ⟨o0, h0, hbare⟩ := w.back ho
    refine ⟨?_, by rw [bare_toProcess hbare]; exact (h.fine b o0 hb h0).2⟩
    by_cases hl : InTable ops b
    · obtain ⟨id, hid⟩ := hl
      obtain ⟨_, o', ho', _, hneat⟩ := t.listed id b hid
      rw [ho] at ho'
      cases ho'
      exact hneat
    · rw [w.rest b fun id h => hl ⟨id, h⟩] at ho
      exact (h.fine b o hb ho).1
  · intro a o ins outs pm ha' ho hk
    obtain ⟨o0, h0, hbare⟩ := w.back ho
    obtain ⟨l, f, ft⟩ := h.pipes a o0 ins outs pm ha' h0 (by rw [← bare_kind hbare]; exact hk)
    refine ⟨l, ⟨f.low, f.le, f.inputs, ?_, ?_, ?_⟩, ft⟩
    · intro b c h1 h2 e
      rcases wires_edge w t ha e with e | ⟨e, _⟩
      · exact f.closed b c h1 h2 e
      · exact absurd ⟨h1, h2⟩ (ft b e)
    · intro b c h1 h2 h3 e
      rcases wires_edge w t ha e with e | ⟨_, e⟩
      · exact f.entered b c h1 h2 h3 e
      · exact absurd ⟨h2, h3⟩ (ft c e)
    · intro q c hc
      rw [w.conns] at hc
      rcases List.mem_append.1 hc with hc | hc
      · exact f.conns q c hc
      · obtain ⟨y, hy, hy'⟩ := List.mem_filterMap.1 hc
        split at hy'
        · cases hy'
          exact ft _ (asked ha y hy)
        · cases hy'

/-! ## Reading descriptions -/

/-- The reader leaves a closed world. -/
def ReadsShut (read : Json V → Mem V → Except Err (Op V × Mem V)) : Prop :=
  ∀ x m o m', (∀ a, m.next ≤ a → m.heap a = none) → read x m = .ok (o, m') → Shut m.next (· ∈ nexts o) m' ∧ (∀ t ∈ nexts o, m.next ≤ t ∧ t < m'.next) ∧
    o.core.toProcess = []

theorem buildOps_shut {read : Json V → Mem V → Except Err (Op V × Mem V)} (hr : ReadsOps read) (hs : ReadsShut read) {m0 : Mem V} (xs : List (Json V)) :
    ∀ {ops ops' : Map Nat} {m m' : Mem V}, Filling m0 ops m → Shut m0.next (InTable ops) m → buildOps read xs ops m = .ok (ops', m') →
      Shut m0.next (InTable ops') m' := by
  induction xs with
  | nil => intro ops ops' m m' _ h hb; cases hb; exact h
  | cons x xs ih =>
    intro ops ops' m m' hf h hb
    unfold buildOps at hb
    obtain ⟨idj, h1, hb⟩ := bind_eq_ok.1 hb
    obtain ⟨⟨o, m1⟩, h2, hb⟩ := bind_eq_ok.1 hb
    obtain ⟨id, h3, hb⟩ := bind_eq_ok.1 hb
    have r := hr x m o m1 hf.table.free h2
    obtain ⟨s1, s2, s3⟩ := hs x m o m1 hf.table.free h2
    have : id = o.core.id := by
      have := (sub_ok h1).unique r.id
      rw [getStr_ok h3] at this
      cases this
      rfl
    subst this
    have inside : ∀ t, InTable ops t → t < m.next := by
      rintro t ⟨id, hid⟩
      obtain ⟨h1, o, h2, _⟩ := hf.table.listed id t hid
      by_contra hc
      rw [hf.table.free t (by omega)] at h2
      cases h2
    have hskip := h.skip hf.grows.le r.grows inside s1 fun t ht => (s2 t ht).1
    split at hb
    · exact ih (hf.skip r) (hskip.mono fun t ht => Or.inl ht) hb
    · rename_i hh
      refine ih (hf.add r hh) ?_ hb
      have hadd := Shut.add (lo' := m.next) r.grows.free r.grows.le hf.grows.le inside hskip s1.ground (fun b c h1 h2 e => ((h.ground b c h1 ((edge_congr (r.grows.old b h2)).1 e))).2)
        s2 r.neat s3 r.alone
      refine hadd.mono ?_
      rintro t ⟨id', hid'⟩
      rw [Map.find?_put] at hid'
      split at hid'
      · cases hid'; exact Or.inr rfl
      · exact Or.inl ⟨id', hid'⟩

theorem exposeOps_targets {m : Mem V} {ui uo : List Str} (ops : Map Nat) : ∀ {ins outs ins' outs' : Map Nat}, exposeOps m ui uo ops ins outs = .ok (ins', outs') →
    ∀ k t, ins'.find? k = some t → ins.find? k = some t ∨ ∃ id, (id, t) ∈ ops := by
  induction ops with
  | nil => intro ins outs ins' outs' h k t hk; cases h; exact Or.inl hk
  | cons e ops ih =>
    intro ins outs ins' outs' h k t hk
    obtain ⟨id, a⟩ := e
    unfold exposeOps at h
    obtain ⟨o, _, h⟩ := bind_eq_ok.1 h
    rcases ih h k t hk with hk | ⟨id', hid⟩
    · rcases (exposePorts_find _).1 hk with hk | ⟨_, rfl, _⟩
      · exact Or.inl hk
      · exact Or.inr ⟨id, by simp⟩
    · exact Or.inr ⟨id', List.mem_cons_of_mem _ hid⟩

theorem readOp_shut (junk : Junk V) (fuel : Nat) : ReadsShut (readOp junk fuel) := by
  induction fuel with
  | zero => intro x m o m' _ h; cases h
  | succ fuel ih =>
    intro x m o m' hfree h
    by_cases hp : HasType x b!"Pipeline"
    · unfold readOp at h
      obtain ⟨tj, h1, h⟩ := bind_eq_ok.1 h
      obtain ⟨t, h2, h⟩ := bind_eq_ok.1 h
      have : t = b!"Pipeline" := by
        have := (at_ok h1).unique hp
        rw [getStr_ok h2] at this
        cases this
        rfl
      rw [if_pos this] at h
      obtain ⟨idj, _, h⟩ := bind_eq_ok.1 h
      obtain ⟨id, _, h⟩ := bind_eq_ok.1 h
      obtain ⟨prog, _, h⟩ := bind_eq_ok.1 h
      obtain ⟨os', cs', ops', ins', outs', pm', ws', _, _, _, _, _, _, _, _, halone, hidle, _⟩ := newPipeline_ok (readOp_reader junk fuel) hfree h
      unfold newPipeline at h
      obtain ⟨os, h1, h⟩ := bind_eq_ok.1 h
      obtain ⟨⟨ops, m1⟩, h2, h⟩ := bind_eq_ok.1 h
      obtain ⟨cs, h3, h⟩ := bind_eq_ok.1 h
      obtain ⟨⟨m2, ui, uo⟩, h4, h⟩ := bind_eq_ok.1 h
      obtain ⟨⟨ins, outs⟩, h5, h⟩ := bind_eq_ok.1 h
      obtain ⟨⟨c, pm1⟩, h6, h⟩ := bind_eq_ok.1 h
      dsimp only at h2 h4 h5 h6 h
      cases h7 : nameOutputs outs.keys 1 c pm1 with
      | mk c' pm =>
      rw [h7] at h
      cases h
      have hfill0 : Filling m [] m := ⟨⟨Nat.le_refl _, fun _ _ => rfl, hfree⟩, ⟨.nil, hfree, fun _ _ h => (by cases h)⟩, fun _ _ _ h => (by cases h),
          fun a o ins outs pm ha ho => by rw [hfree a ha] at ho; cases ho⟩
      have hfill : Filling m ops m1 := buildOps_filling (readOp_reader junk fuel) os.items hfill0 h2
      have hshut0 : Shut m.next (InTable []) m := by
        refine ⟨fun b c hb e => absurd (hfree b hb) (edge_here e), fun b o hb ho => ?_, fun a o ins outs pm ha ho => ?_⟩
        · rw [hfree b hb] at ho; cases ho
        · rw [hfree a ha] at ho; cases ho
      have hshut := buildOps_shut (readOp_reader junk fuel) ih os.items hfill0 hshut0 h2
      obtain ⟨ws, v1, v2, v3, v4, _, _⟩ := pipeConns_wires cs.items hfill.table h4
      have hshut2 := hshut.wires hfill.table v2 v3 v4 v1
      have hn : ∀ t ∈ nexts (⟨c', .pipeline ins outs pm⟩ : Op V), InTable ops t := by
        intro t ht
        have halone' : c'.outputs = [] := halone
        simp only [nexts, halone', List.flatMap_nil, List.nil_append] at ht
        obtain ⟨⟨k, t'⟩, hk, rfl⟩ := List.mem_map.1 ht
        have hkm : k ∈ ins.keys := List.mem_map.2 ⟨_, hk, rfl⟩
        have key : ∀ (ops : Map Nat) {ins0 outs0 ins1 outs1 : Map Nat}, exposeOps m' ui uo ops ins0 outs0 = .ok (ins1, outs1) → ins0.Sorted → ins1.Sorted := by
          intro ops
          induction ops with
          | nil => intro ins0 outs0 ins1 outs1 h hs; cases h; exact hs
          | cons e ops ih =>
            intro ins0 outs0 ins1 outs1 h hs
            obtain ⟨id, a⟩ := e
            unfold exposeOps at h
            obtain ⟨o, _, h⟩ := bind_eq_ok.1 h
            exact ih h (exposePorts_sorted _ hs)
        have hsorted := key ops h5 .nil
        rcases exposeOps_targets ops h5 k t' ((mem_of_find hsorted).2 hk) with hc | ⟨id', hid⟩
        · cases hc
        · exact ⟨id', (mem_of_find v3.sorted).2 hid⟩
      refine ⟨hshut2.mono hn, fun t ht => ?_, hidle⟩
      obtain ⟨id', hid⟩ := hn t ht
      obtain ⟨g1, o, g2, _⟩ := v3.listed id' t hid
      refine ⟨g1, ?_⟩
      by_contra hc
      rw [v3.free t (by omega)] at g2
      cases g2
    · obtain ⟨t, _, h1, rfl⟩ := readOp_simple h hp
      obtain ⟨hb, hid⟩ := simpleOpOf_built h1
      have hnil : nexts o = [] := by
        have := hb.new.simple
        unfold Simple at this
        have h2 := hb.noOutputs
        unfold nexts
        rw [h2]
        cases hk : o.kind <;> rw [hk] at this <;> first | rfl | exact this.elim
      refine ⟨⟨fun b c hb e => absurd (hfree b hb) (edge_here e), fun b o hb ho => ?_, fun a o ins outs pm ha ho => ?_⟩, fun t ht => ?_, hb.new.core.idle⟩
      · rw [hfree b hb] at ho; cases ho
      · rw [hfree a ha] at ho; cases ho
      · rw [hnil] at ht; cases ht

/-- The operators of a created program. -/
theorem initWith_shut {junk : Junk V} {json : Str} {j : Json V} {P : Prog V} (h : Prog.initWith junk json j = .ok P) :
    P = Prog.empty json ∨ ∃ m, P.st = m.st ∧ Shut 0 (InTable P.ops) m := by
  obtain ⟨entry, os, ops, m, cs, m', a, o, _, _, hos, hb, hcs, hc, _, _, h | h⟩ := initWith_ok h
  · obtain ⟨_, rfl⟩ := h
    right
    have hfill0 : Filling (⟨fun _ => none, 0⟩ : Mem V) [] ⟨fun _ => none, 0⟩ :=
      ⟨⟨Nat.le_refl _, fun _ _ => rfl, fun _ _ => rfl⟩, ⟨.nil, fun _ _ => rfl, fun _ _ h => (by cases h)⟩, fun _ _ _ h => (by cases h),
        fun a o ins outs pm ha ho => by cases ho⟩
    have hfill := buildOps_filling (readOp_reader junk _) os.items hfill0 hb
    have hshut0 : Shut 0 (InTable []) (⟨fun _ => none, 0⟩ : Mem V) :=
      ⟨fun b c hb e => absurd rfl (edge_here e), fun b o hb ho => (by cases ho), fun a o ins outs pm ha ho => (by cases ho)⟩
    have hshut := buildOps_shut (readOp_reader junk _) (readOp_shut junk _) os.items hfill0 hshut0 hb
    obtain ⟨ws, v1, v2, v3, v4⟩ := makeConns_wires cs.items hfill.table hc
    exact ⟨m', rfl, hshut.wires hfill.table v2 v3 v4 v1⟩
  · exact Or.inl h.2

end Rtbot
