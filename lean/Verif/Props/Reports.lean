import Verif.Lemmas.Declared
import Verif.Props.Getters
import Verif.Props.Defined

set_option linter.unusedSectionVars false

/-! # C68: what a report may mention -/

namespace Rtbot
variable {V : Type} [Num V]
open Spec

theorem history_recalls (fuel : Nat) (calls : List (OpMsg V)) : ∀ {P : Prog V}, HeapWF P.st.heap → Recalls P (history fuel calls P) := by
  induction calls with
  | nil => intro P _; exact Recalls.refl P
  | cons m calls ih =>
    intro P hw
    have h := answer_recalls true fuel hw m
    exact h.trans (ih (h.shape.wf hw))

theorem Own.shape {T : Nat → Prop} {h h' : Nat → Option (Op V)} (ho : Own T h) (hs : SameShape h h') : Own T h' := by
  refine ⟨fun a o p cs ht ha hf c hc => ?_, fun a o ht ha i q hk => ?_⟩
  · obtain ⟨o', g1, _, _, g2, _⟩ := shape_op hs ha
    exact ho.conns a o' p cs ht g1 (g2 ▸ hf) c hc
  · obtain ⟨o', g1, _, _, _, g2⟩ := shape_op hs ha
    exact ho.whole a o' ht g1 i q (g2 i q hk)

/-- What is reported has been emitted, so it names an operator of the program and a port of that operator. -/
theorem listed_declared {junk : Junk V} {json : Str} {j : Json V} {P Q Q' : Prog V} {fuel : Nat} {msgs : OpMsg V} {r : ProgMsg V}
    (h : Prog.initWith junk json j = .ok P) (hq : Recalls P Q) (hr : Q.receiveDebug fuel msgs = .ok r Q') {id p : Str} (hl : listed r id p ≠ []) :
    ∃ a o, P.ops.find? id = some a ∧ P.st.heap a = some o ∧ o.core.id = id ∧ p ∈ o.core.outIds ∧ (58 : UInt8) ∉ p := by
  obtain ⟨h1, h2⟩ := created_owns h
  have hw := hq.shape.wf (created_wf h)
  obtain ⟨evs, h3, h4, _⟩ := C29_report fuel Q Q' msgs r hw hr
  obtain ⟨_, evs', h5, h6⟩ := receiveDebug_declared hw (h1.shape hq.shape) (fun a ha => ⟨Q.entry, by rw [← hq.ops]; exact ha⟩) hr
  have : evs' = evs := List.append_cancel_left (h5.symm.trans h3)
  subst this
  rw [h4] at hl
  obtain ⟨m, hm⟩ := List.exists_mem_of_ne_nil _ hl
  unfold emitted at hm
  obtain ⟨e, he, hem⟩ := List.mem_filterMap.1 hm
  split at hem
  case h_2 => cases hem
  rename_i d' a id' p' m'
  split at hem
  case isFalse => cases hem
  rename_i hcond
  obtain ⟨rfl, rfl, rfl⟩ := hcond
  obtain ⟨⟨o, k1, k2, k3⟩, k4⟩ := h6 _ _ _ _ _ he
  obtain ⟨id, hid⟩ := k4 rfl
  obtain ⟨o', g1, g2, g3⟩ := h2 id a hid
  obtain ⟨o'', c1, c2, c3, _⟩ := shape_op hq.shape k1
  rw [g1] at c1
  cases c1
  have : id = id' := g2.symm.trans (c2.trans k2)
  subst this
  refine ⟨a, o', hid, g1, g2, c3 ▸ k3, ?_⟩
  exact g3.clean p' (Or.inr (Or.inr (c3 ▸ k3)))

/-- C68: whatever calls have been made before, every entry of the report of a program created from a description names an operator of the program (not of a
pipeline in it) that the description asks for, and one of the output ports of that operator. No port name contains the character ':'. -/
theorem C68_named {junk : Junk V} {json : Str} {j : Json V} {P : Prog V} (h : Prog.initWith junk json j = .ok P) (fuel : Nat) (calls : List (OpMsg V))
    (msgs : OpMsg V) (r : ProgMsg V) (P' : Prog V) (hr : (history fuel calls P).receiveDebug fuel msgs = .ok r P') (id p : Str) (hl : listed r id p ≠ []) :
    (∃ os, Member j b!"operators" os ∧ ∃ x ∈ os.items, HasId x id) ∧
    ∃ a o, P.ops.find? id = some a ∧ P.st.heap a = some o ∧ o.core.id = id ∧ p ∈ o.core.outIds ∧ (58 : UInt8) ∉ p := by
  have hd := listed_declared h (history_recalls fuel calls (created_wf h)) hr hl
  refine ⟨?_, hd⟩
  obtain ⟨a, o, h1, _⟩ := hd
  rcases initWith_wired h with rfl | ⟨os, _, _, _, h2, _, _, h3, _⟩
  · cases h1
  · exact ⟨os, h2, (h3 id).1 (by unfold Map.has; rw [h1]; rfl)⟩

/-- C68 for `receive`: the output filter lets only entries of the debug report pass, so its reports name nothing else either. -/
theorem C68_filtered {junk : Junk V} {json : Str} {j : Json V} {P : Prog V} (h : Prog.initWith junk json j = .ok P) (hs : P.filter.Sorted) (fuel : Nat)
    (calls : List (OpMsg V)) (msgs : OpMsg V) (r : ProgMsg V) (P' : Prog V) (hr : (history fuel calls P).receive fuel msgs = .ok r P') (id p : Str)
    (hl : listed r id p ≠ []) :
    ∃ a o, P.ops.find? id = some a ∧ P.st.heap a = some o ∧ o.core.id = id ∧ p ∈ o.core.outIds ∧ (58 : UInt8) ∉ p := by
  have hq := history_recalls fuel calls (created_wf h)
  cases hd : (history fuel calls P).receiveDebug fuel msgs with
  | err e Q => rw [receive_err hd] at hr; cases hr
  | ok r' Q =>
    refine listed_declared h hq hd (id := id) (p := p) fun hn => hl ?_
    by_cases hf : (history fuel calls P).filter = []
    · rw [C27_no_filter fuel _ msgs hf, hd] at hr
      cases hr
      exact hn
    · obtain ⟨r'', h1, h2⟩ := C27_general fuel _ _ msgs r' (hq.shape.wf (created_wf h)) (by rw [hq.filter]; exact hs) hd hf
      rw [h1] at hr
      cases hr
      rw [h2, hn]
      split
      · rfl
      · simp

/-- A concrete case: the report of a pipeline of a Scale and a Count. Neither of the two is mentioned, though both emit. -/
example : (match Prog.initWith (fun _ => (0, 0)) [] (.obj [(b!"connections", .arr [.obj [(b!"from", .str b!"a"), (b!"to", .str b!"p")]]),
        (b!"entryOperator", .str b!"a"), (b!"operators", .arr [.obj [(b!"id", .str b!"a"), (b!"type", .str b!"Input")],
          .obj [(b!"id", .str b!"p"), (b!"prog", .obj [(b!"connections", .arr [.obj [(b!"from", .str b!"s"), (b!"to", .str b!"c")]]),
            (b!"operators", .arr [.obj [(b!"id", .str b!"s"), (b!"type", .str b!"Scale"), (b!"value", .uint 3)],
              .obj [(b!"id", .str b!"c"), (b!"type", .str b!"Count")]])]), (b!"type", .str b!"Pipeline")]])] : Json ℚ) with
      | .ok P => reportOf ((history 9 [[(i1, [⟨1, 5⟩])]] P).receiveDebug 9 [(i1, [⟨2, 6⟩])])
      | .error _ => none) = some [(b!"a", [(o1, [⟨2, 6⟩])]), (b!"p", [(o1, [⟨2, 2⟩])])] := by
  decide +kernel

end Rtbot
