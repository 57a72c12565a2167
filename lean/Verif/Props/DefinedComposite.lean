import Verif.Props.Composite
import Verif.Props.Defined

set_option linter.unusedSectionVars false

/-! # C65 with Composites -/

namespace Rtbot
variable {V : Type} [Num V]
open Spec

theorem taker_exists {h : Nat → Option (Op V)} (hc : Composed h) {a : Nat} (ha : ∃ o, h a = some o) : ∃ o, flattened h (taker h a) = some o := by
  obtain ⟨o, ho⟩ := ha
  have simple : ∀ b t, h b = some t → Simple t → ∃ o, flattened h b = some o := by
    intro b t hb ht
    unfold flattened
    rw [hb]
    dsimp only
    unfold Simple at ht
    cases hk : t.kind with
    | composite i q => rw [hk] at ht; exact ht.elim
    | _ => exact ⟨_, rfl⟩
  by_cases hk : ∃ i q, o.kind = .composite i q
  · obtain ⟨i, q, hk⟩ := hk
    obtain ⟨j, t, rfl, hj, ht, _⟩ := hc.inputs a o i q ho hk
    rw [taker_comp ho hk]
    exact simple j t hj ht
  · have htk : taker h a = a := by
      unfold taker
      rw [ho]
      dsimp only
      cases hk' : o.kind with
      | composite i q => exact absurd ⟨i, q, hk'⟩ hk
      | _ => rfl
    rw [htk]
    unfold flattened
    rw [ho]
    dsimp only
    cases hk' : o.kind with
    | composite i q => exact absurd ⟨i, q, hk'⟩ hk
    | _ => exact ⟨_, rfl⟩

theorem flattened_back {h : Nat → Option (Op V)} {a : Nat} {o : Op V} (ho : flattened h a = some o) :
    ∃ o0, h a = some o0 ∧ (∀ i q, o0.kind ≠ .composite i q) ∧ o = { o0 with core := { o0.core with outputs := redirected h o0.core.outputs } } := by
  unfold flattened at ho
  cases ha : h a with
  | none => rw [ha] at ho; cases ho
  | some o0 =>
    rw [ha] at ho
    dsimp only at ho
    refine ⟨o0, rfl, ?_, ?_⟩
    · intro i q hk
      rw [hk] at ho
      cases ho
    · cases hk : o0.kind with
      | composite i q => rw [hk] at ho; cases ho
      | _ => rw [hk] at ho; simp only [Option.some.injEq] at ho; rw [← ho]

theorem redirected_find {h : Nat → Option (Op V)} (outs : Map (List Conn)) (p : Str) :
    Map.find? (redirected h outs) p = (Map.find? outs p).map fun cs => cs.map fun c => (⟨taker h c.target, c.port⟩ : Conn) := by
  unfold redirected
  induction outs with
  | nil => rfl
  | cons e outs ih =>
    simp only [List.map_cons, Map.find?]
    split
    · rfl
    · exact ih

/-- C65 with Composites: operators as the constructors build them, connected in any way, and Composites over them. After any messages that did not run forever, a
message to one of them is never undefined. -/
theorem C65_composites {h : Nat → Option (Op V)} (hc : Composed h) (hw : HeapWF h)
    (hb : ∀ b o, h b = some o → (∃ i q, o.kind = .composite i q) ∨ Connected o ∧ Tame o) (hcon : ConnsOK h)
    (fuel : Nat) (l : List (Nat × Str × Msg V)) (hl : ∀ x ∈ l, ∃ o, h x.1 = some o) (hd : .error .diverge ∉ fedReplies fuel l ⟨h, 0, []⟩) (u : UB) :
    .error (.ub u) ∉ fedReplies fuel l ⟨h, 0, []⟩ := by
  rw [← C77_reports hc hw fuel l hd]
  have hmade : ∀ a o, flattened h a = some o → Made (bare o) ∧ Tame o ∧ ∀ ins outs pm, o.kind ≠ .pipeline ins outs pm := by
    intro a o ho
    obtain ⟨o0, h1, h2, rfl⟩ := flattened_back ho
    rcases hb a o0 h1 with ⟨i, q, hk⟩ | ⟨⟨o1, outs, hbt, rfl⟩, ht⟩
    · exact absurd hk (h2 i q)
    · refine ⟨?_, ht, ?_⟩
      · have : bare ({ o1 with core := { o1.core with outputs := redirected h outs } } : Op V) = o1 := (Made.built hbt).bare_eq
        have h3 := this
        dsimp only at h3 ⊢
        rw [h3]
        exact .built hbt
      · intro ins outs' pm hk
        have := hbt.new.simple
        unfold Simple at this
        rw [show o1.kind = _ from hk] at this
        exact this
  have hg : Ground (flattened h) := by
    refine ⟨fun b o ho => ⟨(hmade b o ho).1.begun.data, (hmade b o ho).1.begun.ctrl⟩, fun b o ho => bare_sound ((hmade b o ho).1.sound (hmade b o ho).2.1),
      fun b o ho => (hmade b o ho).1.whole, fun b o ho p cs hf c hcs => ?_, fun b o ho ins outs pm hk => absurd hk ((hmade b o ho).2.2 ins outs pm)⟩
    obtain ⟨o0, h1, _, rfl⟩ := flattened_back ho
    dsimp only at hf
    rw [redirected_find] at hf
    cases hf0 : Map.find? o0.core.outputs p with
    | none => rw [hf0] at hf; cases hf
    | some cs0 =>
      rw [hf0] at hf
      cases hf
      obtain ⟨c0, hc0, rfl⟩ := List.mem_map.1 hcs
      obtain ⟨t, g1, _⟩ := (hcon b o0 h1 p cs0 (find?_mem hf0)).2 c0 hc0
      exact taker_exists hc ⟨t, g1⟩
  have key : ∀ (l : List (Nat × Str × Msg V)) (s : St V), (∀ x ∈ l, ∃ o, h x.1 = some o) → Live (flattened h) (fun _ => 0) s →
      .error (.ub u) ∉ fedReplies fuel (retargeted h l) s := by
    intro l
    induction l with
    | nil => intro s _ _; simp [retargeted, fedReplies]
    | cons x l ih =>
      intro s hx hs
      have := dk_feed hg fuel (taker_exists hc (hx x (List.mem_cons_self ..))) x.2.1 x.2.2 (fun _ => 0) s hs
      rw [show retargeted h (x :: l) = (taker h x.1, x.2) :: retargeted h l from rfl]
      unfold fedReplies
      rw [List.mem_cons, not_or]
      dsimp only
      revert this
      cases feed fuel (taker h x.1) x.2.1 x.2.2 s with
      | ok r s' => exact fun this => ⟨fun e => (by cases e), ih s' (fun y hy => hx y (List.mem_cons_of_mem _ hy)) this⟩
      | err e s' =>
        refine fun this => ⟨fun he => ?_, ih s' (fun y hy => hx y (List.mem_cons_of_mem _ hy)) this.2⟩
        have h1 : e = .ub u := by
          have h1 : (Except.error (.ub u) : Except Err (ProgMsg V)) = .error e := he
          cases h1
          rfl
        exact this.1 u h1
  exact key l ⟨flattened h, 0, []⟩ hl (live_of_made (s := ⟨flattened h, 0, []⟩) fun a o ho => (hmade a o ho).1)

theorem summed_heap (a : Nat) : summed.heap (a + 5) = none := rfl

/-- A concrete case for C65_composites, see also the cases of C77. -/
example (u : UB) (l : List (Nat × Str × Msg Int64)) (hl : ∀ x ∈ l, x.1 < 5) (hd : .error .diverge ∉ fedReplies 20 l ⟨summed.heap, 0, []⟩) :
    .error (.ub u) ∉ fedReplies 20 l ⟨summed.heap, 0, []⟩ := by
  have hex : ∀ a, a < 5 → ∃ o, summed.heap a = some o := by
    intro a ha
    match a, ha with
    | 0, _ => exact ⟨_, rfl⟩
    | 1, _ => exact ⟨_, rfl⟩
    | 2, _ => exact ⟨_, rfl⟩
    | 3, _ => exact ⟨_, rfl⟩
    | 4, _ => exact ⟨_, rfl⟩
  refine C65_composites summed_fine.1 summed_fine.2 ?_ ?_ 20 l (fun x hx => hex x.1 (hl x hx)) hd u
  · intro b o ho
    match b, ho with
    | 0, ho => cases ho; exact .inl ⟨_, _, rfl⟩
    | 1, ho => cases ho; exact .inr ⟨⟨_, _, .input (n := 1) rfl, rfl⟩, trivial⟩
    | 2, ho => cases ho; exact .inr ⟨⟨_, _, .cumSum b!"sum", rfl⟩, trivial⟩
    | 3, ho => cases ho; exact .inr ⟨⟨_, _, .output (n := 1) rfl, rfl⟩, trivial⟩
    | 4, ho => cases ho; exact .inr ⟨⟨_, _, .count b!"n", rfl⟩, trivial⟩
    | b + 5, ho => rw [summed_heap] at ho; cases ho
  · intro b o ho p cs hp
    match b, ho with
    | 0, ho => cases ho; cases hp
    | 1, ho =>
      cases ho
      rcases List.mem_singleton.1 hp with ⟨⟩
      exact ⟨by decide, fun c hc => by rcases List.mem_singleton.1 hc with rfl; exact ⟨_, rfl, .inl (by decide)⟩⟩
    | 2, ho =>
      cases ho
      rcases List.mem_singleton.1 hp with ⟨⟩
      exact ⟨by decide, fun c hc => by rcases List.mem_singleton.1 hc with rfl; exact ⟨_, rfl, .inl (by decide)⟩⟩
    | 3, ho =>
      cases ho
      rcases List.mem_singleton.1 hp with ⟨⟩
      exact ⟨by decide, fun c hc => by rcases List.mem_singleton.1 hc with rfl; exact ⟨_, rfl, .inl (by decide)⟩⟩
    | 4, ho => cases ho; cases hp
    | b + 5, ho => rw [summed_heap] at ho; cases ho

end Rtbot
