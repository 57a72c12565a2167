import Verif.Lemmas.DefinedRun
import Verif.Lemmas.Memory

set_option linter.unusedSectionVars false

/-! # Constructors make operators whose calls are defined -/

namespace Rtbot
variable {V : Type} [Num V]
open Spec

theorem inp_new_max (id : Str) (max : Nat) : (Inp.new id max : Inp V).max ≠ 0 := by
  unfold Inp.new sizeMax
  dsimp only
  split
  · decide
  · assumption

theorem EmptyIns.max {m : Map (Inp V)} (h : EmptyIns m) : ∀ e ∈ m, e.2.max ≠ 0 := by
  intro e he
  obtain ⟨max, h1⟩ := h e he
  rw [h1]
  exact inp_new_max _ _

theorem has_emplace' {β : Type} (m : Map β) (k p : Str) (v : β) : (m.emplace k v).has p = true ↔ p = k ∨ m.has p = true := by
  unfold Map.has
  rw [Map.find?_emplace]
  by_cases h : p = k
  · subst h
    simp only [if_true, true_or, iff_true]
    cases m.find? p <;> rfl
  · simp [h]

theorem addPorts_covers {c : Core V} (hc : Begun c) (max n : Nat) : ∀ {c' pm}, addPorts c max n = .ok (c', pm) →
    ∀ p, c'.dataIn.has p = true → c.dataIn.has p = true ∨ pm.has p = true := by
  induction n with
  | zero => intro c' pm h p hp; cases h; exact Or.inl hp
  | succ n ih =>
    intro c' pm h p hp
    simp only [addPorts] at h
    obtain ⟨⟨c1, pm1⟩, h1, h2⟩ := bind_eq_ok.1 h
    obtain ⟨c2, h3, h4⟩ := bind_eq_ok.1 h2
    cases h4
    obtain ⟨d1, d2, d3, d4, d5⟩ := (addPorts_begun hc max n h1).1.addDataInput h3
    have hp : c2.dataIn.has p = true := hp
    rw [d3, has_emplace'] at hp
    rw [has_emplace']
    rcases hp with rfl | hp
    · exact Or.inr (Or.inl rfl)
    · rcases ih h1 p hp with h | h
      · exact Or.inl h
      · exact Or.inr (Or.inr h)

theorem addControls_covers {c : Core V} (hc : Begun c) (n : Nat) : ∀ {c' pm}, addControls c n = .ok (c', pm) →
    ∀ p, c'.ctrlIn.has p = true → c.ctrlIn.has p = true ∨ pm.has p = true := by
  induction n with
  | zero => intro c' pm h p hp; cases h; exact Or.inl hp
  | succ n ih =>
    intro c' pm h p hp
    simp only [addControls] at h
    obtain ⟨⟨c1, pm1⟩, h1, h2⟩ := bind_eq_ok.1 h
    obtain ⟨c2, h3, h4⟩ := bind_eq_ok.1 h2
    cases h4
    obtain ⟨d1, d2, d3, d4, d5⟩ := (addControls_begun hc n h1).1.addControlInput h3
    have hp : c2.ctrlIn.has p = true := hp
    rw [d3, has_emplace'] at hp
    rw [has_emplace']
    rcases hp with rfl | hp
    · exact Or.inr (Or.inl rfl)
    · rcases ih h1 p hp with h | h
      · exact Or.inl h
      · exact Or.inr (Or.inr h)

theorem insertPoint_length (a : V × V) (l : List (V × V)) : (insertPoint a l).length = l.length + 1 := by
  induction l with
  | nil => rfl
  | cons b l ih =>
    unfold insertPoint
    split
    · simp [ih]
    · rfl

theorem sortPoints_length (l : List (V × V)) : (sortPoints l).length = l.length := by
  induction l with
  | nil => rfl
  | cons a l ih =>
    show (insertPoint a (sortPoints l)).length = _
    rw [insertPoint_length, ih]
    rfl

/-- The kinds with parameters that matter. -/
def special : Kind V → Bool
  | .input _ _ | .output _ | .join _ | .demux _ | .function _ _ | .autoReg _ => true
  | _ => false

theorem sound_other {o : Op V} (hb : Begun o.core) (ht : Tame o) (hk : special o.kind = false) : Sound o := by
  refine ⟨hb.dataEmpty.max, hb.ctrlEmpty.max, ht, fun _ _ h => ?_, fun _ h => ?_, fun _ h => ?_, fun _ h => ?_, fun _ _ h => ?_, fun _ h => ?_⟩ <;>
    (rw [h] at hk; cases hk)

theorem Spec.Built.sound {o : Op V} (h : Built o) (ht : Tame o) : Sound o := by
  have hb := h.new.core
  cases h with
  | input h =>
    obtain ⟨⟨c, pm'⟩, h1, h2⟩ := bind_eq_ok.1 h
    cases h2
    refine ⟨hb.dataEmpty.max, hb.ctrlEmpty.max, ht, ?_, (fun _ hk => by cases hk), (fun _ hk => by cases hk), (fun _ hk => by cases hk),
      (fun _ _ hk => by cases hk), (fun _ hk => by cases hk)⟩
    intro pm last hk p hp
    cases hk
    exact (addPorts_covers (begun_new _) _ _ h1 p hp).resolve_left (by simp [Core.new, Map.has])
  | output h =>
    obtain ⟨⟨c, pm'⟩, h1, h2⟩ := bind_eq_ok.1 h
    cases h2
    refine ⟨hb.dataEmpty.max, hb.ctrlEmpty.max, ht, (fun _ _ hk => by cases hk), ?_, (fun _ hk => by cases hk), (fun _ hk => by cases hk),
      (fun _ _ hk => by cases hk), (fun _ hk => by cases hk)⟩
    intro pm hk p hp
    cases hk
    exact (addPorts_covers (begun_new _) _ _ h1 p hp).resolve_left (by simp [Core.new, Map.has])
  | join h =>
    unfold Op.newJoin at h
    split at h
    · cases h
    · obtain ⟨⟨c, pm'⟩, h1, h2⟩ := bind_eq_ok.1 h
      cases h2
      refine ⟨hb.dataEmpty.max, hb.ctrlEmpty.max, ht, (fun _ _ hk => by cases hk), (fun _ hk => by cases hk), ?_, (fun _ hk => by cases hk),
        (fun _ _ hk => by cases hk), (fun _ hk => by cases hk)⟩
      intro pm hk p hp
      cases hk
      exact (addPorts_covers (begun_new _) _ _ h1 p hp).resolve_left (by simp [Core.new, Map.has])
  | demux h =>
    unfold Op.newDemux at h
    split at h
    · cases h
    · obtain ⟨⟨c, pm'⟩, h1, h2⟩ := bind_eq_ok.1 h
      obtain ⟨c', h3, h4⟩ := bind_eq_ok.1 h2
      cases h4
      refine ⟨hb.dataEmpty.max, hb.ctrlEmpty.max, ht, (fun _ _ hk => by cases hk), (fun _ hk => by cases hk), (fun _ hk => by cases hk), ?_,
        (fun _ _ hk => by cases hk), (fun _ hk => by cases hk)⟩
      intro pm hk p hp
      cases hk
      obtain ⟨_, _, _, d4, _⟩ := (addControls_begun (begun_new _) _ h1).1.addDataInput h3
      have hp : c'.ctrlIn.has p = true := hp
      rw [d4] at hp
      exact (addControls_covers (begun_new _) _ h1 p hp).resolve_left (by simp [Core.new, Map.has])
  | function h =>
    unfold Op.newFunction at h
    split at h
    · cases h
    · rename_i hl
      split at h
      · cases h
      · cases h
        refine ⟨hb.dataEmpty.max, hb.ctrlEmpty.max, ht, (fun _ _ hk => by cases hk), (fun _ hk => by cases hk), (fun _ hk => by cases hk),
          (fun _ hk => by cases hk), ?_, (fun _ hk => by cases hk)⟩
        intro ps t hk
        cases hk
        rw [sortPoints_length]
        omega
  | autoReg id as =>
    refine ⟨hb.dataEmpty.max, hb.ctrlEmpty.max, ht, (fun _ _ hk => by cases hk), (fun _ hk => by cases hk), (fun _ hk => by cases hk),
      (fun _ hk => by cases hk), (fun _ _ hk => by cases hk), ?_⟩
    intro as' hk
    cases hk
    exact ⟨_, rfl, rfl⟩
  | linear h =>
    unfold Op.newLinear at h
    split at h
    · cases h
    · obtain ⟨c, h1, h2⟩ := bind_eq_ok.1 h
      cases h2
      exact sound_other hb ht rfl
  | constRes h =>
    unfold Op.newConstRes at h
    split at h
    · cases h
    · cases h; exact sound_other hb ht rfl
  | _ => exact sound_other hb ht rfl

theorem Made.sound {o : Op V} (h : Made o) (ht : Tame o) : Sound o := by
  cases h with
  | built h => exact h.sound ht
  | pipe h hk => exact sound_other h ht (by rw [hk]; rfl)

theorem Made.stocked {o : Op V} (h : Made o) : Stocked 0 o := by
  intro as _ e he
  obtain ⟨max, h1⟩ := h.begun.dataEmpty e he
  rw [h1]
  exact Or.inl ⟨rfl, rfl⟩

theorem bare_sound {o : Op V} (h : Sound (bare o)) : Sound o :=
  ⟨h.data, h.ctrl, h.tame, h.input, h.output, h.join, h.demux, h.points, h.coeff⟩

/-- Operators made by constructors, connected, are the ground for defined calls. -/
theorem ground_of_made {h0 : Nat → Option (Op V)} (hm : ∀ a o, h0 a = some o → Made (bare o)) (ht : ∀ a o, h0 a = some o → Tame o)
    (hc : ConnsOK h0)
    (hp : ∀ b o, h0 b = some o → ∀ ins outs pm, o.kind = .pipeline ins outs pm → ∀ k t, ins.find? k = some t → ∃ ot, h0 t = some ot ∧ ¬ IsAR ot) :
    Ground h0 := by
  refine ⟨fun b o ho => ⟨(hm b o ho).begun.data, (hm b o ho).begun.ctrl⟩, fun b o ho => bare_sound ((hm b o ho).sound (ht b o ho)),
    fun b o ho => (hm b o ho).whole, fun b o ho p cs hf c hcs => ?_, hp⟩
  obtain ⟨t, h1, _⟩ := (hc b o ho p cs (find?_mem hf)).2 c hcs
  exact ⟨t, h1⟩

theorem live_of_made {s : St V} (hm : ∀ a o, s.heap a = some o → Made (bare o)) : Live s.heap (fun _ => 0) s :=
  ⟨fun _ => rfl, fun b o ho => (hm b o ho).stocked⟩

end Rtbot
