import Verif.Spec.Built
import Verif.Lemmas.PortRun

/-! # What the constructors guarantee -/

set_option linter.unusedSectionVars false

namespace Rtbot
variable {V : Type} [Num V]
open Spec

/-- Every buffer is empty and filed under its own id. -/
def EmptyIns (m : Map (Inp V)) : Prop := ∀ e ∈ m, ∃ max, e.2 = Inp.new e.1 max

/-- The members of the base class right after construction. -/
structure Begun (c : Core V) : Prop where
  data : c.dataIn.Sorted
  ctrl : c.ctrlIn.Sorted
  idle : c.toProcess = []
  alone : c.outputs = []
  dataEmpty : EmptyIns c.dataIn
  ctrlEmpty : EmptyIns c.ctrlIn

theorem begun_new (id : Str) : Begun (Core.new id : Core V) :=
  ⟨.nil, .nil, rfl, rfl, fun _ h => (by cases h), fun _ h => (by cases h)⟩

theorem emptyIns_one (p : Str) (max : Nat) : EmptyIns [(p, (Inp.new p max : Inp V))] := by
  intro e he
  simp only [List.mem_singleton] at he
  subst he; exact ⟨max, rfl⟩

theorem emptyIns_emplace {m : Map (Inp V)} (h : EmptyIns m) (p : Str) (max : Nat) : EmptyIns (m.emplace p (Inp.new p max)) := by
  intro e he
  rcases mem_emplace he with h' | h'
  · exact h e h'
  · subst h'; exact ⟨max, rfl⟩

theorem Begun.addDataInput {c c' : Core V} (h : Begun c) {p : Str} {max : Nat} (hc : c.addDataInput p max = .ok c') :
    Begun c' ∧ c'.outIds = c.outIds ∧ c'.dataIn = c.dataIn.emplace p (Inp.new p max) ∧ c'.ctrlIn = c.ctrlIn ∧ c'.id = c.id := by
  unfold Core.addDataInput at hc
  split at hc
  · cases hc
  · split at hc
    · cases hc
    · cases hc
      exact ⟨⟨h.data.emplace _ _, h.ctrl, h.idle, h.alone, emptyIns_emplace h.dataEmpty _ _, h.ctrlEmpty⟩, rfl, rfl, rfl, rfl⟩

theorem Begun.addControlInput {c c' : Core V} (h : Begun c) {p : Str} {max : Nat} (hc : c.addControlInput p max = .ok c') :
    Begun c' ∧ c'.outIds = c.outIds ∧ c'.ctrlIn = c.ctrlIn.emplace p (Inp.new p max) ∧ c'.dataIn = c.dataIn ∧ c'.id = c.id := by
  unfold Core.addControlInput at hc
  split at hc
  · cases hc
  · split at hc
    · cases hc
    · cases hc
      exact ⟨⟨h.data, h.ctrl.emplace _ _, h.idle, h.alone, h.dataEmpty, emptyIns_emplace h.ctrlEmpty _ _⟩, rfl, rfl, rfl, rfl⟩

theorem Begun.addOutput {c : Core V} (h : Begun c) (p : Str) : Begun (c.addOutput p) :=
  ⟨h.data, h.ctrl, h.idle, h.alone, h.dataEmpty, h.ctrlEmpty⟩

theorem addPorts_begun {c : Core V} (hc : Begun c) (max n : Nat) : ∀ {c' pm}, addPorts c max n = .ok (c', pm) →
    Begun c' ∧ c'.ctrlIn = c.ctrlIn ∧ c'.id = c.id ∧ ∀ q ∈ pm.vals, q ∈ c'.outIds := by
  induction n with
  | zero => intro c' pm h; cases h; exact ⟨hc, rfl, rfl, by simp [Map.vals]⟩
  | succ n ih =>
    intro c' pm h
    simp only [addPorts] at h
    obtain ⟨⟨c1, pm1⟩, h1, h2⟩ := bind_eq_ok.1 h
    obtain ⟨c2, h3, h4⟩ := bind_eq_ok.1 h2
    cases h4
    obtain ⟨b1, b2, b3, b4⟩ := ih h1
    obtain ⟨d1, d2, d3, d4, d5⟩ := b1.addDataInput h3
    refine ⟨d1.addOutput _, by rw [← b2, ← d4]; rfl, by rw [← b3, ← d5]; rfl, ?_⟩
    intro q hq
    simp only [Core.addOutput, mem_setInsert]
    obtain ⟨e, he, rfl⟩ := List.mem_map.1 hq
    rcases mem_emplace he with he | he
    · right; rw [d2]; exact b4 _ (List.mem_map.2 ⟨e, he, rfl⟩)
    · left; rw [he]

theorem addInputs_begun {c : Core V} (hc : Begun c) (max n : Nat) : ∀ {c'}, addInputs c max n = .ok c' →
    Begun c' ∧ c'.ctrlIn = c.ctrlIn ∧ c'.id = c.id ∧ c'.outIds = c.outIds := by
  induction n with
  | zero => intro c' h; cases h; exact ⟨hc, rfl, rfl, rfl⟩
  | succ n ih =>
    intro c' h
    simp only [addInputs] at h
    obtain ⟨c1, h1, h3⟩ := bind_eq_ok.1 h
    obtain ⟨b1, b2, b3, b4⟩ := ih h1
    obtain ⟨d1, d2, d3, d4, d5⟩ := b1.addDataInput h3
    exact ⟨d1, d4.trans b2, d5.trans b3, d2.trans b4⟩

theorem addControls_begun {c : Core V} (hc : Begun c) (n : Nat) : ∀ {c' pm}, addControls c n = .ok (c', pm) →
    Begun c' ∧ c'.dataIn = c.dataIn ∧ c'.id = c.id ∧ ∀ q ∈ pm.vals, q ∈ c'.outIds := by
  induction n with
  | zero => intro c' pm h; cases h; exact ⟨hc, rfl, rfl, by simp [Map.vals]⟩
  | succ n ih =>
    intro c' pm h
    simp only [addControls] at h
    obtain ⟨⟨c1, pm1⟩, h1, h2⟩ := bind_eq_ok.1 h
    obtain ⟨c2, h3, h4⟩ := bind_eq_ok.1 h2
    cases h4
    obtain ⟨b1, b2, b3, b4⟩ := ih h1
    obtain ⟨d1, d2, d3, d4, d5⟩ := b1.addControlInput h3
    refine ⟨d1.addOutput _, by rw [← b2, ← d4]; rfl, by rw [← b3, ← d5]; rfl, ?_⟩
    intro q hq
    simp only [Core.addOutput, mem_setInsert]
    obtain ⟨e, he, rfl⟩ := List.mem_map.1 hq
    rcases mem_emplace he with he | he
    · right; rw [d2]; exact b4 _ (List.mem_map.2 ⟨e, he, rfl⟩)
    · left; rw [he]

theorem begun_simple (id : Str) (max : Nat) : Begun (Core.simple id max : Core V) :=
  ⟨by simp [Core.simple, Map.Sorted, Map.keys], by simp [Core.simple, Map.Sorted, Map.keys], rfl, rfl, emptyIns_one _ _,
    fun _ h => by cases h⟩

/-- What holds of every newly built operator. -/
structure New (o : Op V) : Prop where
  core : Begun o.core
  simple : Simple o
  names : ∀ q ∈ outNames o.kind, q ∈ o.core.outIds
  binary : BinaryPorts o

theorem new_simple (id : Str) (max : Nat) {k : Kind V} (hk : outNames k = [o1]) (hs : Simple ⟨Core.simple id max, k⟩)
    (hb : ∀ b, k ≠ .binary b) : New (⟨Core.simple id max, k⟩ : Op V) :=
  ⟨begun_simple _ _, hs, by intro q hq; rw [hk] at hq; exact hq, fun b h => absurd h (hb b)⟩

theorem Spec.Built.new {o : Op V} (h : Built o) : New o := by
  cases h with
  | input h =>
    unfold Op.newInput at h
    obtain ⟨⟨c, pm⟩, h1, h2⟩ := bind_eq_ok.1 h
    cases h2
    obtain ⟨b1, _, _, b4⟩ := addPorts_begun (begun_new _) _ _ h1
    exact ⟨b1, trivial, b4, fun b h => by cases h⟩
  | output h =>
    unfold Op.newOutput at h
    obtain ⟨⟨c, pm⟩, h1, h2⟩ := bind_eq_ok.1 h
    cases h2
    obtain ⟨b1, _, _, b4⟩ := addPorts_begun (begun_new _) _ _ h1
    exact ⟨b1, trivial, b4, fun b h => by cases h⟩
  | join h =>
    unfold Op.newJoin at h
    split at h
    · cases h
    · obtain ⟨⟨c, pm⟩, h1, h2⟩ := bind_eq_ok.1 h
      cases h2
      obtain ⟨b1, _, _, b4⟩ := addPorts_begun (begun_new _) _ _ h1
      exact ⟨b1, trivial, b4, fun b h => by cases h⟩
  | linear h =>
    unfold Op.newLinear at h
    split at h
    · cases h
    · obtain ⟨c, h1, h2⟩ := bind_eq_ok.1 h
      cases h2
      obtain ⟨b1, _, _, b4⟩ := addInputs_begun (begun_new _) _ _ h1
      exact ⟨b1.addOutput _, trivial, by intro q hq; simp only [Core.addOutput, mem_setInsert]; exact Or.inl (by simpa [outNames] using hq),
        fun b h => by cases h⟩
  | demux h =>
    unfold Op.newDemux at h
    split at h
    · cases h
    · obtain ⟨⟨c, pm⟩, h1, h2⟩ := bind_eq_ok.1 h
      obtain ⟨c2, h3, h4⟩ := bind_eq_ok.1 h2
      cases h4
      obtain ⟨b1, _, _, b4⟩ := addControls_begun (begun_new _) _ h1
      obtain ⟨d1, d2, _⟩ := b1.addDataInput h3
      exact ⟨d1, trivial, by intro q hq; rw [d2]; exact b4 q hq, fun b h => by cases h⟩
  | constRes h =>
    unfold Op.newConstRes at h
    split at h
    · cases h
    · cases h; exact new_simple _ _ rfl trivial (fun b h => by cases h)
  | function h =>
    unfold Op.newFunction at h
    split at h
    · cases h
    · split at h
      · cases h
      · cases h; exact new_simple _ _ rfl trivial (fun b h => by cases h)
  | binary id op =>
    refine ⟨⟨?_, .nil, rfl, rfl, ?_, fun _ h => (by cases h)⟩, trivial, fun q hq => hq, fun b _ => ⟨rfl, rfl⟩⟩
    · simp +decide [Op.newBinary, Map.Sorted, Map.keys]
    · intro e he
      simp only [Op.newBinary, List.mem_cons, List.not_mem_nil, or_false] at he
      rcases he with rfl | rfl
      · exact ⟨_, rfl⟩
      · exact ⟨_, rfl⟩
  | «variable» id v =>
    exact ⟨⟨by simp [Op.newVariable, Map.Sorted, Map.keys], by simp [Op.newVariable, Map.Sorted, Map.keys], rfl, rfl, emptyIns_one _ _,
      emptyIns_one _ _⟩, trivial, fun q hq => hq, fun b h => by cases h⟩
  | collector id n =>
    exact ⟨⟨by simp [Op.newCollector, Map.Sorted, Map.keys], .nil, rfl, rfl, emptyIns_one _ _, fun _ h => (by cases h)⟩, trivial,
      fun q hq => hq, fun b h => by cases h⟩
  | _ => exact new_simple _ _ rfl trivial (fun b h => by cases h)

theorem Spec.Connected.parts {o : Op V} (h : Connected o) : Simple o ∧ PortsOK o ∧ o.core.WF := by
  obtain ⟨o0, outs, hb, rfl⟩ := h
  have hn := hb.new
  refine ⟨hn.simple, ⟨?_, hn.names, hn.binary⟩, hn.core.data, hn.core.ctrl⟩
  intro p hp
  have : o0.core.toProcess = [] := hn.core.idle
  simp only [this] at hp
  cases hp

theorem fine_start {s : St V} (h : ∀ b o, s.heap b = some o → Connected o) : Fine s.heap s :=
  ⟨.refl _, fun b o ho => (h b o ho).parts.1, fun b o ho => (h b o ho).parts.2.1, fun b o ho => (h b o ho).parts.2.2⟩

end Rtbot
