import Verif.Lemmas.Cut
import Verif.Lemmas.Flow
import Verif.Spec.Compose

/-! # What operators with one output port answer -/

namespace Rtbot
namespace Cut
variable {V : Type} [Num V]
open Spec

/-- The operator has the output port "o1" only. -/
structure OnePort (o : Op V) : Prop where
  ok : PortsOK o
  wf : o.core.WF
  one : outNames o.kind = [o1]

theorem step_parts {o o' : Op V} {p : Str} {m : Msg V} {out : OpMsg V} (h : step o p m = .ok out o') :
    ∃ x, x.execData = .ok out o' ∧ (act o (.recvData p m)).1 = x ∧ (act x .execData).1 = o' := by
  unfold step at h
  cases h1 : o.recvData m p with
  | error e => rw [h1] at h; cases h
  | ok x =>
    rw [h1] at h
    dsimp only at h
    refine ⟨x, h, ?_, ?_⟩
    · simp only [act, h1]
    · simp only [act, h]

theorem outs_one {out : OpMsg V} (h : Outs [o1] out) : out = [] ∨ ∃ l, out = [(o1, l)] := by
  have hs := h.sorted
  have hk := h.sub
  match out, hs, hk with
  | [], _, _ => exact Or.inl rfl
  | [(k, l)], _, hk =>
    have : k ∈ [o1] := hk k (List.mem_cons_self ..)
    rw [List.mem_singleton.1 this]
    exact Or.inr ⟨l, rfl⟩
  | (k, l) :: (k', l') :: rest, hs, hk =>
    exfalso
    have e1 : k = o1 := List.mem_singleton.1 (hk k (List.mem_cons_self ..))
    have e2 : k' = o1 := List.mem_singleton.1 (hk k' (List.mem_cons_of_mem _ (List.mem_cons_self ..)))
    subst e1
    subst e2
    simp only [Map.Sorted, Map.keys, List.map_cons, List.pairwise_cons] at hs
    exact absurd (hs.1 o1 (List.mem_cons_self ..)) (by decide)

theorem OnePort.step {o o' : Op V} (h : OnePort o) {p : Str} {m : Msg V} {out : OpMsg V} (hs : step o p m = .ok out o') : (out = [] ∨ ∃ l, out = [(o1, l)]) ∧ OnePort o' := by
  have hf := step_fresh h.wf hs
  obtain ⟨x, e1, e2, e3⟩ := step_parts hs
  have h1 := h.ok.act h.wf (.recvData p m)
  have f1 := act_fresh o h.wf (.recvData p m)
  rw [e2] at h1 f1
  have w1 := Core.WF.of_fresh (congrArg Op.core f1) h.wf
  have h2 := h1.act w1 .execData
  rw [e3] at h2
  refine ⟨?_, h2, Core.WF.of_fresh (congrArg Op.core hf) h.wf, by rw [outNames_of_fresh hf]; exact h.one⟩
  have := sr_execData _ h1
  rw [e1, outNames_of_fresh f1, h.one] at this
  exact outs_one this

theorem OnePort.feed {p : Str} : ∀ (ms : List (Msg V)) {o o' : Op V} {outs : List (OpMsg V)}, OnePort o → feedOp o p ms = .ok outs o' →
    (∀ x ∈ outs, x = [] ∨ ∃ l, x = [(o1, l)]) ∧ OnePort o' := by
  intro ms
  induction ms with
  | nil => intro o o' outs h hf; cases hf; exact ⟨fun x hx => (by cases hx), h⟩
  | cons m ms ih =>
    intro o o' outs h hf
    simp only [feedOp] at hf
    cases h1 : Spec.step o p m with
    | err e o2 => rw [h1] at hf; cases hf
    | ok y o2 =>
      rw [h1] at hf
      dsimp only at hf
      obtain ⟨g1, g2⟩ := h.step h1
      cases h2 : feedOp o2 p ms with
      | err e o3 => rw [h2] at hf; cases hf
      | ok ys o3 =>
        rw [h2] at hf
        cases hf
        obtain ⟨g3, g4⟩ := ih g2 h2
        refine ⟨fun x hx => ?_, g4⟩
        rcases List.mem_cons.1 hx with e | hx
        · rw [e]; exact g1
        · exact g3 x hx

theorem feedOp_split {p : Str} : ∀ (ms ms' : List (Msg V)) {o o' : Op V} {outs : List (OpMsg V)}, feedOp o p (ms ++ ms') = .ok outs o' →
    ∃ o1 outs1 outs2, feedOp o p ms = .ok outs1 o1 ∧ feedOp o1 p ms' = .ok outs2 o' ∧ outs = outs1 ++ outs2 := by
  intro ms
  induction ms with
  | nil => intro ms' o o' outs h; exact ⟨o, [], outs, rfl, h, rfl⟩
  | cons m ms ih =>
    intro ms' o o' outs h
    rw [List.cons_append] at h
    simp only [feedOp] at h ⊢
    cases h1 : Spec.step o p m with
    | err e o2 => rw [h1] at h; cases h
    | ok y o2 =>
      rw [h1] at h
      dsimp only at h ⊢
      cases h2 : feedOp o2 p (ms ++ ms') with
      | err e o3 => rw [h2] at h; cases h
      | ok ys o3 =>
        rw [h2] at h
        cases h
        obtain ⟨x, xs, zs, g1, g2, rfl⟩ := ih ms' h2
        rw [g1]
        exact ⟨x, y :: xs, zs, rfl, g2, rfl⟩

/-- An operator that answers all messages of the batches, taken together, answers the batches. -/
theorem OnePort.batches {p : Str} : ∀ (mss : List (List (Msg V))) {o o' : Op V} {outs : List (OpMsg V)}, OnePort o → feedOp o p mss.flatten = .ok outs o' →
    ∃ outss, OutBatches o p mss outss ∧ outss.flatten = emittedOn o1 outs := by
  intro mss
  induction mss with
  | nil => intro o o' outs _ h; cases h; exact ⟨[], .nil, rfl⟩
  | cons ms mss ih =>
    intro o o' outs h hf
    obtain ⟨o2, xs, ys, g1, g2, rfl⟩ := feedOp_split ms mss.flatten hf
    obtain ⟨k1, k2⟩ := h.feed ms g1
    obtain ⟨zs, k3, k4⟩ := ih k2 g2
    refine ⟨_, .cons g1 k1 k3, ?_⟩
    rw [List.flatten_cons, k4]
    simp [emittedOn]

/-- Calls that are all answered. -/
theorem feedOp_of_results {q : Str} : ∀ (ms : List (Msg V)) {o : Op V}, (∀ r ∈ results o (inTurn q ms), ∃ out, r = .ok out) → ∃ outs o', feedOp o q ms = .ok outs o' := by
  intro ms
  induction ms with
  | nil => intro o _; exact ⟨[], o, rfl⟩
  | cons m ms ih =>
    intro o h
    have e : results o (inTurn q (m :: ms)) = (act o (.recvData q m)).2 :: (act (act o (.recvData q m)).1 .execData).2 :: results (act (act o (.recvData q m)).1 .execData).1 (inTurn q ms) := by
      unfold inTurn
      rw [List.flatMap_cons]
      rfl
    rw [e] at h
    obtain ⟨out1, h1⟩ := h _ (List.mem_cons_self ..)
    obtain ⟨out2, h2⟩ := h _ (List.mem_cons_of_mem _ (List.mem_cons_self ..))
    have hrest := fun r hr => h r (List.mem_cons_of_mem _ (List.mem_cons_of_mem _ hr))
    have hstep : Spec.step o q m = .ok out2 (act (act o (.recvData q m)).1 .execData).1 := by
      unfold Spec.step
      simp only [act] at h1 h2 ⊢
      cases hr : o.recvData m q with
      | error e => rw [hr] at h1; cases h1
      | ok o2 =>
        rw [hr] at h2
        dsimp only at h2 ⊢
        cases hx : o2.execData with
        | err e o3 => rw [hx] at h2; cases h2
        | ok out o3 => rw [hx] at h2; cases h2; rfl
    obtain ⟨outs, o', h3⟩ := ih hrest
    simp only [feedOp, hstep, h3]
    exact ⟨_, _, rfl⟩

end Cut
end Rtbot
