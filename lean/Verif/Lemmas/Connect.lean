import Verif.Lemmas.Built
import Verif.Spec.Create

set_option linter.unusedSectionVars false

/-! # Connecting operators -/

namespace Rtbot
variable {V : Type} [Num V]
open Spec

theorem connect_spec {c child c' : Core V} {t : Nat} {op ip : Str} (h : c.connect child t op ip = .ok (some c')) :
    ∃ p q cs, p ∈ c.outIds ∧ (q ∈ child.dataIn.keys ∨ q ∈ child.ctrlIn.keys) ∧ (op = [] ∨ p = op) ∧ (ip = [] ∨ q = ip) ∧
      c' = { c with outputs := c.outputs.put p (cs ++ [⟨t, q⟩]) } ∧ (cs = [] ∧ Map.find? c.outputs p = none ∨ Map.find? c.outputs p = some cs) := by
  unfold Core.connect at h
  dsimp only at h
  generalize hop : (if op = [] then _ else op) = p at h
  generalize hip : (if ip = [] then _ else ip) = q at h
  split at h
  · cases h
  split at h
  · cases h
  split at h
  · rename_i h3
    simp only [Bool.and_eq_true, List.contains_iff_mem] at h3
    have hq : q ∈ child.dataIn.keys ∨ q ∈ child.ctrlIn.keys := by
      have := h3.2
      unfold Core.allInputs at this
      exact List.mem_append.1 this
    have hp1 : op = [] ∨ p = op := by
      by_cases ho : op = []
      · exact Or.inl ho
      · rw [if_neg ho] at hop; exact Or.inr hop.symm
    have hp2 : ip = [] ∨ q = ip := by
      by_cases ho : ip = []
      · exact Or.inl ho
      · rw [if_neg ho] at hip; exact Or.inr hip.symm
    split at h
    · rename_i hf
      cases h
      refine ⟨p, q, [], h3.1, hq, hp1, hp2, ?_, Or.inl ⟨rfl, hf⟩⟩
      have : c.outputs.has p = false := by unfold Map.has; rw [hf]; rfl
      simp [Map.emplace, this]
    · rename_i v hf
      cases h
      exact ⟨p, q, v, h3.1, hq, hp1, hp2, rfl, Or.inr hf⟩
  · cases h

theorem connectOp_conns {s : St V} (h : ConnsOK s.heap) (a b : Nat) (op ip : Str) : ConnsOK (connectOp a b op ip s).state.heap := by
  have key : ∀ (src : Nat) (t : Op V), s.heap b = some t → ∀ (s' : St V), s'.heap = s.heap →
      ConnsOK (localRun src (Op.connect t.core b op ip) s').state.heap := by
    intro src t ht s' hs'
    unfold localRun
    cases ho : s'.heap src with
    | none => simpa [Res.state, hs'] using h
    | some o =>
      dsimp only [Op.connect]
      have same : ConnsOK (s'.setOp src o).heap := by
        have : (s'.setOp src o).heap = s.heap := by
          funext x
          simp only [St.setOp]
          split
          · rename_i hx; rw [hx, ← hs', ho]
          · rw [hs']
        rw [this]; exact h
      cases hc : o.core.connect t.core b op ip with
      | error e => exact same
      | ok r =>
        cases r with
        | none => exact same
        | some c =>
          obtain ⟨p, q, cs, h1, h2, _, _, h5, h6⟩ := connect_spec hc
          simp only [Res.state, St.setOp]
          have frame : ∀ x o', s.heap x = some o' → ∃ o'', (if x = src then some { o with core := c } else s'.heap x) = some o'' ∧
              o''.core.dataIn.keys = o'.core.dataIn.keys ∧ o''.core.ctrlIn.keys = o'.core.ctrlIn.keys := by
            intro x o' hx
            split
            · rename_i he
              rw [he, ← hs', ho] at hx
              cases hx
              exact ⟨_, rfl, by rw [h5], by rw [h5]⟩
            · exact ⟨o', by rw [hs']; exact hx, rfl, rfl⟩
          have lift : ∀ d : Conn, (∃ t, s.heap d.target = some t ∧ (d.port ∈ t.core.dataIn.keys ∨ d.port ∈ t.core.ctrlIn.keys)) →
              ∃ t, (if d.target = src then some { o with core := c } else s'.heap d.target) = some t ∧
                (d.port ∈ t.core.dataIn.keys ∨ d.port ∈ t.core.ctrlIn.keys) := by
            rintro d ⟨t', ht', hd⟩
            obtain ⟨t'', k1, k2, k3⟩ := frame _ _ ht'
            exact ⟨t'', k1, by rw [k2, k3]; exact hd⟩
          intro x o' hx p' cs' hm
          dsimp only at hx ⊢
          split at hx
          · cases hx
            have hsrc : s.heap src = some o := by rw [← hs']; exact ho
            rw [h5] at hm
            dsimp only at hm
            rcases mem_put hm with hm | hm
            · obtain ⟨k1, k2⟩ := h src o hsrc p' cs' hm
              exact ⟨by rw [h5]; exact k1, fun d hd => lift d (k2 d hd)⟩
            · cases hm
              refine ⟨by rw [h5]; exact h1, fun d hd => lift d ?_⟩
              rcases List.mem_append.1 hd with hd | hd
              · rcases h6 with ⟨h6, _⟩ | h6
                · rw [h6] at hd; cases hd
                · exact (h src o hsrc p cs (find?_mem h6)).2 d hd
              · simp only [List.mem_singleton] at hd
                subst hd
                exact ⟨t, ht, h2⟩
          · rw [hs'] at hx
            obtain ⟨k1, k2⟩ := h x o' hx p' cs' hm
            exact ⟨k1, fun d hd => lift d (k2 d hd)⟩
  unfold connectOp
  simp only [bind, M.bind, getOp]
  cases ha : s.heap a with
  | none => exact h
  | some oa =>
    dsimp only
    cases hb : s.heap b with
    | none => exact h
    | some t =>
      dsimp only
      cases oa.kind with
      | composite i q =>
        cases q with
        | none => exact h
        | some q => exact key q t hb s rfl
      | _ => exact key a t hb s rfl

end Rtbot
