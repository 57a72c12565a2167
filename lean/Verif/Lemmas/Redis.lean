import Verif.Spec.Redis
import Verif.Props.Rust

/-! # Lemmas about the Redis module -/

namespace Rtbot
open Spec
variable {β V : Type}

/-! ## Series -/

theorem insert_last (t : UInt64) (v : V) : ∀ S : List (UInt64 × V), S.Pairwise (fun x y => x.1 < y.1) →
    ∃ S', insertSample true t v S = some S' ∧ S'.Pairwise (fun x y => x.1 < y.1) ∧ (∀ x ∈ S', x.1 = t ∨ ∃ y ∈ S, x.1 = y.1) ∧
      ∀ t', (S'.find? fun x => decide (x.1 = t')).map (·.2) = if t = t' then some v else (S.find? fun x => decide (x.1 = t')).map (·.2) := by
  intro S
  induction S with
  | nil =>
    intro _
    refine ⟨[(t, v)], rfl, by simp, by simp, fun t' => ?_⟩
    by_cases h : t = t' <;> simp [h]
  | cons x S ih =>
    intro hs
    obtain ⟨t0, v0⟩ := x
    rw [List.pairwise_cons] at hs
    unfold insertSample
    by_cases h1 : t < t0
    · rw [if_pos h1]
      refine ⟨_, rfl, ?_, ?_, fun t' => ?_⟩
      · rw [List.pairwise_cons]
        refine ⟨fun y hy => ?_, List.pairwise_cons.2 hs⟩
        rcases List.mem_cons.1 hy with rfl | hy
        · exact h1
        · exact UInt64.lt_trans h1 (hs.1 y hy)
      · intro x hx
        rcases List.mem_cons.1 hx with rfl | hx
        · exact .inl rfl
        · exact .inr ⟨x, hx, rfl⟩
      · by_cases h : t = t' <;> simp [List.find?_cons, h]
    · rw [if_neg h1]
      by_cases h2 : t = t0
      · subst h2
        rw [if_pos rfl, if_pos rfl]
        refine ⟨_, rfl, List.pairwise_cons.2 hs, ?_, fun t' => ?_⟩
        · intro x hx
          rcases List.mem_cons.1 hx with rfl | hx
          · exact .inl rfl
          · exact .inr ⟨x, List.mem_cons_of_mem _ hx, rfl⟩
        · by_cases h : t = t' <;> simp [List.find?_cons, h]
      · rw [if_neg h2]
        obtain ⟨S', g1, g2, g3, g4⟩ := ih hs.2
        rw [g1]
        refine ⟨_, rfl, ?_, ?_, fun t' => ?_⟩
        · rw [List.pairwise_cons]
          refine ⟨fun y hy => ?_, g2⟩
          rcases g3 y hy with h | ⟨z, hz, h⟩
          · show t0 < y.1
            rw [h]
            exact UInt64.lt_of_le_of_ne (UInt64.not_lt.1 h1) (Ne.symm h2)
          · show t0 < y.1
            rw [h]
            exact hs.1 z hz
        · intro x hx
          rcases List.mem_cons.1 hx with rfl | hx
          · exact .inr ⟨(t0, v0), List.mem_cons_self .., rfl⟩
          · rcases g3 x hx with h | ⟨z, hz, h⟩
            · exact .inl h
            · exact .inr ⟨z, List.mem_cons_of_mem _ hz, h⟩
        · simp only [List.find?_cons]
          by_cases h : t0 = t'
          · subst h
            simp [h2]
          · simp only [h, decide_false]
            exact g4 t'

theorem latest_snoc (xs : List (UInt64 × V)) (t : UInt64) (v : V) (t' : UInt64) :
    latest (xs ++ [(t, v)]) t' = if t = t' then some v else latest xs t' := by
  unfold latest
  by_cases h : t = t' <;> simp [List.find?_cons, h]

theorem insert_series {xs S : List (UInt64 × V)} (h : SeriesOf xs S) (t : UInt64) (v : V) :
    ∃ S', insertSample true t v S = some S' ∧ SeriesOf (xs ++ [(t, v)]) S' ∧ S' ≠ [] := by
  obtain ⟨S', g1, g2, _, g4⟩ := insert_last t v S h.sorted
  refine ⟨S', g1, ⟨g2, fun t' => ?_⟩, ?_⟩
  · rw [g4, latest_snoc, h.value]
  · rintro rfl
    have := g4 t
    simp at this

theorem series_nil : SeriesOf ([] : List (UInt64 × V)) [] := ⟨List.Pairwise.nil, fun _ => rfl⟩

/-! ## Registry -/

theorem ids_nil {ids : List (Str × Str)} {f : Str → Option Str} (h : ∀ o id, (o, id) ∈ ids ↔ f o = some id) (hf : ∀ o, f o = none) : ids = [] := by
  cases ids with
  | nil => rfl
  | cons e ids =>
    have := (h e.1 e.2).1 (List.mem_cons_self ..)
    rw [hf] at this
    cases this

theorem ids_one {ids : List (Str × Str)} {f : Str → Option Str} (hp : (ids.map (·.1)).Pairwise (fun k k' => strLt k k' = true))
    (h : ∀ o id, (o, id) ∈ ids ↔ f o = some id) {o id : Str} (ho : f o = some id) (hf : ∀ o', o' ≠ o → f o' = none) : ids = [(o, id)] := by
  have only : ∀ e ∈ ids, e = (o, id) := by
    intro e he
    have h1 := (h e.1 e.2).1 he
    by_cases heo : e.1 = o
    · rw [heo, ho] at h1
      cases h1
      exact Prod.ext heo rfl
    · rw [hf _ heo] at h1
      cases h1
  cases ids with
  | nil => exact absurd ((h o id).2 ho) (by simp)
  | cons e ids =>
    have h1 := only e (List.mem_cons_self ..)
    subst h1
    cases ids with
    | nil => rfl
    | cons e' ids =>
      have h2 := only e' (by simp)
      subst h2
      have h3 : strLt o o = true := (List.pairwise_cons.1 hp).1 o (by simp)
      rw [strLt_irrefl] at h3
      cases h3

/-- Nothing is registered for the key: a message changes nothing. -/
theorem receive_none (b : Bridge β V) {g : Rs β} (hg : RsSteady g) {k : Str} (h : ∀ o, pipeBetween g k o = none) (m : RsMsg V) : g.receive b k m = .ok [] g := by
  obtain ⟨ids, _, h2, h3⟩ := C75_receive b k m g hg
  cases ids_nil h2 h
  exact h3

/-- One pipeline is registered for the key. -/
theorem receive_one (b : Bridge β V) {g : Rs β} (hg : RsSteady g) {k o id : Str} (ho : pipeBetween g k o = some id)
    (h : ∀ o', o' ≠ o → pipeBetween g k o' = none) (m : RsMsg V) :
    g.receive b k m = .ok [(o, (b.receive id m g.lib).1)] { g with lib := (b.receive id m g.lib).2 } := by
  obtain ⟨ids, h1, h2, h3⟩ := C75_receive b k m g hg
  cases ids_one h1 h2 ho h
  exact h3

theorem RsSteady.withLib {g : Rs β} (hg : RsSteady g) (lib : β) : RsSteady { g with lib := lib } := ⟨hg.free, hg.keys, hg.outs⟩

/-! ## The loop of rtbot.run -/

theorem addSample_quiet (b : Bridge β V) (wire : V → Option V) {o : Str} {t : UInt64} {v : V} (hw : wire v = some v) {db : Map (Entry V)}
    {pub : List (Str × UInt64 × V)} {g : Rs β} (hg : RsSteady g) (hn : ∀ o', pipeBetween g o o' = none) {xs S : List (UInt64 × V)}
    (hdb : db.find? o = some (.series true S)) (hS : SeriesOf xs S) :
    ∃ S', addSample b wire o t v ⟨db, pub, some g⟩ = .ok () ⟨db.put o (.series true S'), pub, some g⟩ ∧ SeriesOf (xs ++ [(t, v)]) S' := by
  obtain ⟨S', g1, g2, g3⟩ := insert_series hS t v
  refine ⟨S', ?_, g2⟩
  unfold addSample tsAdd
  simp only [hw, hdb, g1, Option.map_some]
  unfold onAdd tsRange
  simp only [Map.find?_put_self]
  cases hl : S'.getLast? with
  | none => exact absurd (List.getLast?_eq_none_iff.1 hl) g3
  | some x =>
    simp only [receive_none b hg hn]
    rfl

theorem runSamples_run (env : RedisEnv β V) {input output id : Str} (pub : List (Str × UInt64 × V)) : ∀ (samples : List (UInt64 × V))
    (g : Rs β) (db : Map (Entry V)) (xs0 S xs : List (UInt64 × V)), RsSteady g → pipeBetween g input output = some id →
    (∀ o, o ≠ output → pipeBetween g input o = none) → (∀ o, pipeBetween g output o = none) →
    db.find? output = some (.series true S) → SeriesOf xs0 S → Firsts (replied env.bridge id samples g.lib).1 xs → (∀ x ∈ xs, env.wire x.2 = some x.2) →
    ∃ db' S', runSamples env input samples ⟨db, pub, some g⟩ = .ok () ⟨db', pub, some { g with lib := (replied env.bridge id samples g.lib).2 }⟩ ∧
      db'.find? output = some (.series true S') ∧ SeriesOf (xs0 ++ xs) S' ∧ ∀ k, k ≠ output → db'.find? k = db.find? k := by
  intro samples
  induction samples with
  | nil =>
    intro g db xs0 S xs hg ho hoth hout hdb hS hx hw
    cases hx
    exact ⟨db, S, rfl, hdb, by simpa using hS, fun _ _ => rfl⟩
  | cons x samples ih =>
    obtain ⟨t, v⟩ := x
    intro g db xs0 S xs hg ho hoth hout hdb hS hx hw
    unfold runSamples
    simp only [receive_one env.bridge hg ho hoth]
    have hrep : replied env.bridge id ((t, v) :: samples) g.lib =
      ((env.bridge.receive id ⟨t, [v]⟩ g.lib).1 :: (replied env.bridge id samples (env.bridge.receive id ⟨t, [v]⟩ g.lib).2).1,
        (replied env.bridge id samples (env.bridge.receive id ⟨t, [v]⟩ g.lib).2).2) := rfl
    rw [hrep] at hx ⊢
    generalize hres : (env.bridge.receive id ⟨t, [v]⟩ g.lib).1 = res at hx ⊢
    generalize hlib : (env.bridge.receive id ⟨t, [v]⟩ g.lib).2 = lib at hx ⊢
    have hg' : RsSteady { g with lib := lib } := hg.withLib lib
    cases hx with
    | silent hx =>
      have hst : storeAll env [(output, ([] : List (RsMsg V)))] ⟨db, pub, some { g with lib := lib }⟩ = .ok () ⟨db, pub, some { g with lib := lib }⟩ := rfl
      simp only [hst]
      exact ih { g with lib := lib } db xs0 S xs hg' ho hoth hout hdb hS hx hw
    | cons h1 hx =>
      cases h1 with
      | mk t' v' vs ms =>
        rename_i xs
        obtain ⟨S', e1, e2⟩ := addSample_quiet env.bridge env.wire (t := t') (pub := pub) (hw (t', v') (List.mem_cons_self ..)) hg' hout hdb hS
        have hst : storeAll env [(output, (⟨t', v' :: vs⟩ :: ms : List (RsMsg V)))] ⟨db, pub, some { g with lib := lib }⟩ =
            .ok () ⟨db.put output (.series true S'), pub, some { g with lib := lib }⟩ := by
          unfold storeAll
          simp only [e1]
          rfl
        simp only [hst]
        obtain ⟨db', S'', f1, f2, f3, f4⟩ := ih { g with lib := lib } (db.put output (.series true S')) (xs0 ++ [(t', v')]) S' xs hg' ho hoth hout
          (Map.find?_put_self ..) e2 hx fun x hx => hw x (List.mem_cons_of_mem _ hx)
        refine ⟨db', S'', f1, f2, by simpa using f3, fun k hk => ?_⟩
        rw [f4 k hk, Map.find?_put_ne _ _ hk]

end Rtbot
