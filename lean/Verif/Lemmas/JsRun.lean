import Verif.Spec.Javascript
import Verif.Lemmas.PyRun

namespace Rtbot
open Spec
variable {V : Type}

/-! ## The collapsed format -/

/-- Append messages with the names of their columns. -/
def pushAll (js : JsEnv V) (l : List (Str × Msg V)) (c : Collapsed V) : Collapsed V :=
  l.foldl (fun c e => jsPush e.1 (js.shown e.2.time, js.read e.2.value) c) c

theorem pushAll_append (js : JsEnv V) (l l' : List (Str × Msg V)) (c : Collapsed V) : pushAll js (l ++ l') c = pushAll js l' (pushAll js l c) :=
  List.foldl_append ..

theorem collect_eq (js : JsEnv V) (r : ProgMsg V) (c : Collapsed V) : jsCollect (js.report r) c = pushAll js (flat r) c := by
  unfold jsCollect JsEnv.report
  rw [List.foldl_map]
  induction r generalizing c with
  | nil => rfl
  | cons e r ih =>
    obtain ⟨id, x⟩ := e
    have hs : flat ((id, x) :: r) = flatOp id x ++ flat r := rfl
    rw [List.foldl_cons, hs, pushAll_append, ih]
    congr 1
    dsimp only
    rw [List.foldl_map]
    clear ih hs
    induction x generalizing c with
    | nil => rfl
    | cons y x ih =>
      obtain ⟨p, ms⟩ := y
      have hs : flatOp id ((p, ms) :: x) = (ms.map fun m => (joinName id p, m)) ++ flatOp id x := rfl
      rw [List.foldl_cons, hs, pushAll_append, ih]
      congr 1
      dsimp only
      rw [List.foldl_map]
      unfold pushAll
      rw [List.foldl_map]

theorem find_pushAll (js : JsEnv V) (k : Str) : ∀ (l : List (Str × Msg V)) (c : Collapsed V), CollapsedOf js c (pushAll js l c) k (picked k l) := by
  intro l
  induction l with
  | nil =>
    intro c
    unfold CollapsedOf
    cases h : c.find? k <;> simp [picked, pushAll, h]
  | cons e l ih =>
    obtain ⟨k', m⟩ := e
    intro c
    have hstep : pushAll js ((k', m) :: l) c = pushAll js l (jsPush k' (js.shown m.time, js.read m.value) c) := rfl
    have h := ih (jsPush k' (js.shown m.time, js.read m.value) c)
    rw [hstep]
    revert h
    generalize pushAll js l (jsPush k' (js.shown m.time, js.read m.value) c) = c'
    intro h
    have hpush : (jsPush k' (js.shown m.time, js.read m.value) c).find? k = if k = k' then
        (match c.find? k' with | none => some ([js.shown m.time], [js.read m.value]) | some (ts, vs) => some (ts ++ [js.shown m.time], vs ++ [js.read m.value]))
        else c.find? k := by
      unfold jsPush
      cases hc : c.find? k' with
      | none => rw [Map.find?_put]
      | some y => rw [Map.find?_put]
    by_cases he : k' = k
    · subst he
      have hp : picked k' ((k', m) :: l) = m :: picked k' l := by simp [picked]
      rw [hp]
      unfold CollapsedOf at h ⊢
      rw [hpush, if_pos rfl] at h
      cases hc : c.find? k' with
      | none =>
        rw [hc] at h
        cases hc' : c'.find? k' with
        | none => rw [hc'] at h; exact False.elim h
        | some y =>
          rw [hc'] at h
          dsimp only at h ⊢
          exact ⟨by simp, by rw [h.1]; rfl, by rw [h.2]; rfl⟩
      | some z =>
        rw [hc] at h
        cases hc' : c'.find? k' with
        | none => rw [hc'] at h; exact h
        | some y =>
          rw [hc'] at h
          dsimp only at h ⊢
          exact ⟨by rw [h.1]; simp, by rw [h.2]; simp⟩
    · have hp : picked k ((k', m) :: l) = picked k l := by simp [picked, he]
      rw [hp]
      unfold CollapsedOf at h ⊢
      rw [hpush, if_neg fun hc => he hc.symm] at h
      exact h

/-! ## Sending a row -/

variable [Num V]

theorem prepare_row (js : JsEnv V) {id : Str} {t : V} {t' : UInt64} (ht : js.time t = some t') : ∀ (ports : List Str) (vs : List V) (F : Factory V),
    ports.length ≤ vs.length → jsPrepare js id (jsRow t ports vs) F = pyFill id t' ports (vs.take ports.length) F := by
  intro ports
  induction ports with
  | nil =>
    intro vs F _
    show _ = pyFill id t' [] (vs.take 0) F
    rw [List.take_zero]
    rfl
  | cons p ports ih =>
    intro vs F h
    cases vs with
    | nil => simp at h
    | cons v vs =>
      have h' : ports.length ≤ vs.length := by simpa using h
      show (match jsSend js id p [(t, some v)] F with
        | .err e F => Res.err e F
        | .ok _ F => jsPrepare js id (jsRow t ports vs) F) = pyFill id t' (p :: ports) (v :: vs.take ports.length) F
      unfold jsSend pyFill
      rw [ht]
      dsimp only
      cases F.add id p ⟨t', v⟩ with
      | err e F => rfl
      | ok _ F => exact ih vs F h'

theorem rowMsgs_take (ports : List Str) (t : UInt64) (vs : List V) : rowMsgs ports (t, vs.take ports.length) = rowMsgs ports (t, vs) := by
  unfold rowMsgs
  dsimp only
  congr 1
  induction ports generalizing vs with
  | nil => simp
  | cons p ports ih =>
    cases vs with
    | nil => rfl
    | cons v vs =>
      simp only [List.length_cons, List.take_succ_cons, List.zip_cons_cons]
      rw [ih]

/-- What the loop over the rows does. -/
theorem jsRows_run {O : Type} {js : JsEnv V} {record : List (Str × List (JsMsg V)) → JsReport V → O → O} {junk : Junk V} {json : Str} {j : Json V} {P : Prog V}
    (hP : Prog.initWith junk json j = .ok P) {id : Str} {ports : List Str} (hs : ports.Pairwise fun p q => strLt p q = true) (hne : ports ≠ []) :
    ∀ {rows : List (V × List V)} {Q : Prog V} {out : O} {F : Factory V}, Recalls P Q → F.programs.find? id = some Q → F.buffered id = [] →
    (∀ r ∈ rows, (js.time r.1).isSome = true ∧ ports.length ≤ r.2.length) →
    match debugRun js.api.fuel (jsCalls js ports rows) Q with
    | .err e Q' => ∃ F', jsRows js record id ports rows out F = .err e F' ∧ F'.programs.find? id = some Q' ∧ ∀ b, b ≠ id → SameView b F F'
    | .ok rs Q' => ∃ F', jsRows js record id ports rows out F =
          .ok (((rows.map fun r => jsRow r.1 ports r.2).zip rs).foldl (fun o x => record x.1 (js.report x.2) o) out) F' ∧
        F'.programs.find? id = some Q' ∧ F'.buffered id = [] ∧ (∀ b, b ≠ id → SameView b F F') ∧ Recalls P Q' ∧ rs.length = rows.length ∧
        ∀ r ∈ rs, NoEmptyEntries r ∧ ∀ o p, listed r o p ≠ [] → (58 : UInt8) ∉ p := by
  intro rows
  induction rows with
  | nil =>
    intro Q out F hq hf hb _
    show ∃ _, _
    exact ⟨F, rfl, hf, hb, fun b _ => SameView.refl b F, hq, rfl, fun r hr => by cases hr⟩
  | cons row rows ih =>
    obtain ⟨t, vs⟩ := row
    intro Q out F hq hf hb hl
    obtain ⟨ht, hlen⟩ := hl (t, vs) (by simp)
    obtain ⟨t', ht⟩ := Option.isSome_iff_exists.1 ht
    dsimp only at ht hlen
    obtain ⟨F1, h1, h2, h3, h4⟩ := pyFill_ok (t := t') (vs := vs.take ports.length) (has_of_find hf) (by rw [hb]; intro k hk; cases hk) hs (by simp)
    rw [hb, List.nil_append, rowMsgs_take] at h3
    have hf1 : F1.programs.find? id = some Q := by rw [h2]; exact hf
    have hprep : jsPrepare js id (jsRow t ports vs) F = .ok () F1 := (prepare_row js ht ports vs F hlen).trans h1
    have hcalls : jsCalls js ports ((t, vs) :: rows) = rowMsgs ports (t', vs) :: jsCalls js ports rows := by
      unfold jsCalls
      simp [ht]
    have hmne : rowMsgs ports (t', vs) ≠ [] := by
      cases ports with
      | nil => exact absurd rfl hne
      | cons p ports =>
        cases vs with
        | nil => simp at hlen
        | cons v vs => simp [rowMsgs]
    have hp : F1.processBuffer true js.api.fuel id = match Q.receiveDebug js.api.fuel (rowMsgs ports (t', vs)) with
        | .err e P' => .err e { F1 with programs := F1.programs.put id P' }
        | .ok r P' => .ok r ⟨F1.programs.put id P', F1.buffer.erase id⟩ := by
      rw [processBuffer_eq hf1, h3, if_neg hmne]
      rfl
    have hproc : jsProcess js true id (jsRow t ports vs) F = match F1.processBuffer true js.api.fuel id with
        | .err e F => .err e F
        | .ok r F => .ok (js.report r) F := by
      unfold jsProcess
      rw [hprep]
      rfl
    rw [hcalls]
    unfold debugRun
    cases hd : Q.receiveDebug js.api.fuel (rowMsgs ports (t', vs)) with
    | err e Q1 =>
      rw [hd] at hp
      rw [hp] at hproc
      refine ⟨{ F1 with programs := F1.programs.put id Q1 }, ?_, by simp, fun b hbn => ?_⟩
      · unfold jsRows
        rw [hproc]
      · exact ⟨(Map.find?_put_ne _ _ hbn).trans (by rw [h2]), h4 b hbn⟩
    | ok r Q1 =>
      rw [hd] at hp
      rw [hp] at hproc
      have hw1 := hq.shape.wf (created_wf hP)
      obtain ⟨_, _, _, hn⟩ := C29_report _ _ _ _ _ hw1 hd
      have hcol : ∀ o p, listed r o p ≠ [] → (58 : UInt8) ∉ p := fun o p hlp => by
        obtain ⟨_, _, _, _, _, _, h⟩ := listed_declared hP hq hd hlp
        exact h
      have hq1 : Recalls P Q1 := by
        have h := answer_recalls true js.api.fuel hw1 (rowMsgs ports (t', vs))
        have h' : (Q.answer true js.api.fuel (rowMsgs ports (t', vs))).state = Q1 := by
          show (Q.receiveDebug js.api.fuel (rowMsgs ports (t', vs))).state = Q1
          rw [hd]
          rfl
        rw [h'] at h
        exact hq.trans h
      have hview : ∀ b, b ≠ id → SameView b F ⟨F1.programs.put id Q1, F1.buffer.erase id⟩ := by
        intro b hbn
        refine ⟨(Map.find?_put_ne _ _ hbn).trans (by rw [h2]), ?_⟩
        refine Eq.trans ?_ (h4 b hbn)
        refine buffered_congr ?_
        rw [Map.find?_erase, if_neg hbn]
      have hrows : jsRows js record id ports ((t, vs) :: rows) out F =
          jsRows js record id ports rows (record (jsRow t ports vs) (js.report r) out) ⟨F1.programs.put id Q1, F1.buffer.erase id⟩ := by
        conv_lhs => unfold jsRows
        rw [hproc]
      have hnext := ih (out := record (jsRow t ports vs) (js.report r) out) (F := ⟨F1.programs.put id Q1, F1.buffer.erase id⟩) hq1 (by simp) (buffered_erase ..)
        fun x hx => hl x (List.mem_cons_of_mem _ hx)
      rw [hrows]
      dsimp only
      revert hnext
      cases debugRun js.api.fuel (jsCalls js ports rows) Q1 with
      | err e Q2 =>
        rintro ⟨F', g1, g2, g3⟩
        exact ⟨F', g1, g2, fun b hbn => (hview b hbn).trans (g3 b hbn)⟩
      | ok rs Q2 =>
        rintro ⟨F', g1, g2, g3, g4, g5, g6, g7⟩
        refine ⟨F', g1, g2, g3, fun b hbn => (hview b hbn).trans (g4 b hbn), g5, by simp [g6], ?_⟩
        intro x hx
        rcases List.mem_cons.1 hx with rfl | hx
        · exact ⟨hn, hcol⟩
        · exact g7 x hx

end Rtbot
