import Verif.Lemmas.Redis
import Verif.Lemmas.RedisSchema
import Verif.Props.Schema
import Verif.Spec.Toy

/-! # C79: rtbot.run. C80: samples that are added later. C81: which programs the Redis module takes -/

namespace Rtbot
open Spec
variable {β V : Type}

/-! ## C79 -/

/-- The situation in which `rtbot.run` starts: the program can be read and is accepted, the input is a series, the library makes the pipeline, and no pipelines begin at the
input or at the output. -/
structure RunReady (env : RedisEnv β V) (lib : β) (fresh program input output : Str) (r : Redis β V) (samples : List (UInt64 × V)) (lib1 : β) : Prop where
  steady : RsSteady (registryOf lib r)
  text : ∃ s j, jsonGet program r = some s ∧ env.parse s = .ok j ∧ redisSchema.accepts j = true ∧ env.bridge.create fresh s (registryOf lib r).lib = ([], lib1)
  series : tsRange input r = some samples
  apart : input ≠ output
  alone : ∀ o, pipeBetween (registryOf lib r) input o = none
  last : ∀ o, pipeBetween (registryOf lib r) output o = none

theorem registryIn_eq (lib : β) (r : Redis β V) : r.registryIn lib = registryOf lib r := by
  unfold Redis.registryIn registryOf Rs.new
  rfl

/-- C79: `rtbot.run` sends the samples of the input series to a new pipeline in order and writes the first values of the results to the output series, which then has nothing else. Nothing else
changes in the database. The pipeline is deleted in the end, or kept when the caller asks for it. -/
theorem C79_run {env : RedisEnv β V} {lib lib1 : β} {fresh program input output : Str} {r : Redis β V} {samples xs : List (UInt64 × V)}
    (h : RunReady env lib fresh program input output r samples lib1) (hx : Firsts (replied env.bridge fresh samples lib1).1 xs)
    (hw : ∀ x ∈ xs, env.wire x.2 = some x.2) (persist : Bool) (hd : persist = false → (env.bridge.delete fresh (replied env.bridge fresh samples lib1).2).1 = []) :
    ∃ r' g S, rtbotRun env lib fresh program input output persist r = .ok (if persist then .id fresh else .ok) r' ∧ r'.published = r.published ∧
      r'.db.find? output = some (.series true S) ∧ SeriesOf xs S ∧ (∀ k, k ≠ output → r'.db.find? k = r.db.find? k) ∧ r'.registry = some g ∧ RsSteady g ∧
      (∀ i o, pipeBetween g i o = if persist = true ∧ i = input ∧ o = output then some fresh else pipeBetween (registryOf lib r) i o) ∧
      g.lib = if persist then (replied env.bridge fresh samples lib1).2 else (env.bridge.delete fresh (replied env.bridge fresh samples lib1).2).2 := by
  obtain ⟨db, pub, reg⟩ := r
  obtain ⟨s, j, t1, t2, t3, t4⟩ := h.text
  obtain ⟨_, _, c3⟩ := C75_create env.bridge fresh s input output (registryOf lib ⟨db, pub, reg⟩) h.steady
  obtain ⟨g1, e1, e2, e3, e4⟩ := c3 (h.alone output) (by rw [t4])
  rw [t4] at e2
  dsimp only at e2
  have hstart : rtbotRun env lib fresh program input output persist ⟨db, pub, reg⟩ =
      match runSamples env input samples ⟨(db.erase output).put output (.series true []), pub, some g1⟩ with
      | .err r => .err r
      | .panic r => .panic r
      | .hang r => .hang r
      | .ok _ r =>
        if persist then .ok (.id fresh) r
        else match r.registry with
          | none => .panic r
          | some g => match g.delete env.bridge input output with
            | .err .diverge g => .hang { r with registry := some g }
            | .err _ g => .err { r with registry := some g }
            | .ok _ g => .ok .ok { r with registry := some g } := by
    have hjson : ∀ reg', jsonGet program (⟨db, pub, reg'⟩ : Redis β V) = some s := fun _ => t1
    have hrange : ∀ reg', tsRange input (⟨db, pub, reg'⟩ : Redis β V) = some samples := fun _ => h.series
    have hcreate : ∀ reg', tsCreate output (del output (⟨db, pub, reg'⟩ : Redis β V)) = some ⟨(db.erase output).put output (.series true []), pub, reg'⟩ := by
      intro reg'
      unfold tsCreate del
      simp only [Map.find?_erase, if_true]
    unfold rtbotRun
    simp only [registryIn_eq, hjson, t2, t3, if_true, e1, hrange, hcreate]
    rfl
  obtain ⟨db', S, f1, f2, f3, f4⟩ := runSamples_run env (input := input) (output := output) (id := fresh) pub samples g1
    ((db.erase output).put output (.series true [])) [] [] xs e3 (by rw [e4, if_pos ⟨rfl, rfl⟩])
    (fun o ho => by rw [e4, if_neg fun hc => ho hc.2]; exact h.alone o) (fun o => by rw [e4, if_neg fun hc => h.apart hc.1.symm]; exact h.last o)
    (Map.find?_put_self ..) series_nil (by rw [e2]; exact hx) hw
  rw [e2] at f1
  have hdb : ∀ k, k ≠ output → db'.find? k = db.find? k := by
    intro k hk
    rw [f4 k hk, Map.find?_put_ne _ _ hk, Map.find?_erase, if_neg hk]
  rw [hstart, f1]
  cases persist with
  | true =>
    refine ⟨_, _, S, rfl, rfl, f2, by simpa using f3, hdb, rfl, e3.withLib _, fun i o => ?_, rfl⟩
    show pipeBetween g1 i o = _
    rw [e4]
    simp
  | false =>
    dsimp only
    have hs2 : RsSteady { g1 with lib := (replied env.bridge fresh samples lib1).2 } := e3.withLib _
    obtain ⟨g2, d1, d2, d3, d4⟩ := (C75_delete env.bridge input output { g1 with lib := (replied env.bridge fresh samples lib1).2 } hs2).2 fresh
      (show pipeBetween g1 input output = _ by rw [e4, if_pos ⟨rfl, rfl⟩])
    rw [if_pos (hd rfl)] at d1
    rw [d1]
    refine ⟨_, g2, S, rfl, rfl, f2, by simpa using f3, hdb, rfl, d3, fun i o => ?_, d2⟩
    rw [d4]
    simp only [Bool.false_eq_true, false_and, if_false]
    by_cases hio : i = input ∧ o = output
    · rw [if_pos hio]
      rw [hio.1]
      exact (h.alone o).symm
    · rw [if_neg hio]
      show pipeBetween g1 i o = _
      rw [e4, if_neg hio]

/-- C79: a program that is missing, cannot be read or is not accepted, and a second program between the same keys, are refused: the database and the pipelines are as before. -/
theorem C79_refused (env : RedisEnv β V) (lib : β) (fresh program input output : Str) (persist : Bool) (r : Redis β V) (hs : RsSteady (registryOf lib r))
    (h : (∀ s j, r.db.find? program = some (.json s) → env.parse s = .ok j → redisSchema.accepts j = false) ∨ pipeBetween (registryOf lib r) input output ≠ none) :
    rtbotRun env lib fresh program input output persist r = .err { r with registry := some (registryOf lib r) } := by
  obtain ⟨db, pub, reg⟩ := r
  unfold rtbotRun
  have hjson : ∀ reg', jsonGet program (⟨db, pub, reg'⟩ : Redis β V) = jsonGet program ⟨db, pub, reg⟩ := fun _ => rfl
  simp only [registryIn_eq, hjson]
  cases h1 : jsonGet program (⟨db, pub, reg⟩ : Redis β V) with
  | none => rfl
  | some s =>
    dsimp only
    cases h2 : env.parse s with
    | error e => rfl
    | ok j =>
      dsimp only
      rcases h with h | h
      · have hp : db.find? program = some (.json s) := by
          unfold jsonGet at h1
          dsimp only at h1
          split at h1
          · rename_i s' hs'
            cases h1
            exact hs'
          · cases h1
        rw [h s j hp h2]
        rfl
      · rw [(C75_create env.bridge fresh s input output _ hs).1 h]
        split <;> rfl

/-- C79: the arguments: `rtbot.run` takes three keys and whether the pipeline is kept, `rtbot.xrun` takes three keys and always keeps it. -/
theorem C79_arguments (env : RedisEnv β V) (lib : β) (fresh p i o : Str) (r : Redis β V) :
    runCommand env lib fresh [p, i, o] r = rtbotRun env lib fresh p i o false r ∧ runCommand env lib fresh [p, i, o, b!"false"] r = rtbotRun env lib fresh p i o false r ∧
    runCommand env lib fresh [p, i, o, b!"true"] r = rtbotRun env lib fresh p i o true r ∧ xrunCommand env lib fresh [p, i, o] r = rtbotRun env lib fresh p i o true r ∧
    ∀ args, args.length < 3 → (∃ r', runCommand env lib fresh args r = .err r' ∧ r'.db = r.db) ∧ ∃ r', xrunCommand env lib fresh args r = .err r' ∧ r'.db = r.db := by
  refine ⟨rfl, rfl, rfl, rfl, fun args ha => ?_⟩
  match args, ha with
  | [], _ => exact ⟨⟨_, rfl, rfl⟩, _, rfl, rfl⟩
  | [_], _ => exact ⟨⟨_, rfl, rfl⟩, _, rfl, rfl⟩
  | [_, _], _ => exact ⟨⟨_, rfl, rfl⟩, _, rfl, rfl⟩

/-! ### Concrete cases -/

/-- A program as the module wants it. -/
def redisDemo : Json Nat :=
  .obj [(b!"connections", .arr []), (b!"entryNode", .str b!"in"), (b!"operators", .arr [.obj [(b!"id", .str b!"in"), (b!"type", .str b!"Input")]]), (b!"title", .str b!"t")]

/-- The module with a library; every text is the program. -/
def demoEnv (b : Bridge β Nat) : RedisEnv β Nat := ⟨b, some, fun _ => .ok redisDemo⟩

/-- A server with a program and a series of three samples. -/
def demoServer (reg : Option (Rs β)) : Redis β Nat :=
  ⟨[(b!"in", .series false [(1, 10), (2, 20), (5, 30)]), (b!"out", .json b!"old"), (b!"p", .json b!"{}")], [], reg⟩

/-- The pipelines of the registry: input key, output key and id. -/
def pipesOf : Option (Rs β) → List (Str × Str × Str)
  | none => []
  | some g => g.pipelines.flatMap fun e => e.2.map fun p => (e.1, p.1, p.2)

/-- What can be seen after a command: its end, the samples of a key, what was published and the pipelines. -/
structure Seen where
  fate : Str
  samples : Option (List (UInt64 × Nat))
  published : List (Str × UInt64 × Nat)
  pipes : List (Str × Str × Str)
  deriving DecidableEq

@[inherit_doc Seen] def seen (k : Str) : Fate (Redis β Nat) RunOk → Seen
  | .ok .ok r => ⟨b!"ok", tsRange k r, r.published, pipesOf r.registry⟩
  | .ok (.id s) r => ⟨s, tsRange k r, r.published, pipesOf r.registry⟩
  | .err r => ⟨b!"error", tsRange k r, r.published, pipesOf r.registry⟩
  | .panic r => ⟨b!"panic", tsRange k r, r.published, pipesOf r.registry⟩
  | .hang r => ⟨b!"hang", tsRange k r, r.published, pipesOf r.registry⟩

/-- A concrete case: the pipeline counts the samples; the old value of the output key is replaced. -/
example : seen b!"out" (rtbotRun (demoEnv countingLib) [] b!"x" b!"p" b!"in" b!"out" false (demoServer none)) =
      ⟨b!"ok", some [(1, 1), (2, 2), (5, 3)], [], []⟩ ∧
    seen b!"out" (rtbotRun (demoEnv countingLib) [] b!"x" b!"p" b!"in" b!"out" true (demoServer none)) =
      ⟨b!"x", some [(1, 1), (2, 2), (5, 3)], [], [(b!"in", b!"out", b!"x")]⟩ := by
  constructor <;> decide +kernel

/-- The hypotheses of `C79_run` hold in this case. -/
example : RunReady (demoEnv countingLib) [] b!"x" b!"p" b!"in" b!"out" (demoServer none) [(1, 10), (2, 20), (5, 30)] [(b!"x", 0)] ∧
    Firsts (replied countingLib b!"x" [(1, 10), (2, 20), (5, 30)] [(b!"x", 0)]).1 [(1, 1), (2, 2), (5, 3)] := by
  refine ⟨⟨⟨rfl, .nil, fun _ _ h => by cases h⟩, ⟨b!"{}", redisDemo, rfl, rfl, by decide +kernel, rfl⟩, rfl, by decide, fun _ => rfl, fun _ => rfl⟩, ?_⟩
  exact .cons (.mk 1 1 [] []) (.cons (.mk 2 2 [] []) (.cons (.mk 5 3 [] []) .nil))

/-- A library whose pipelines answer each message with two messages. -/
def doublingLib : Bridge Unit Nat where
  create _ _ _ := ([], ())
  delete _ _ := ([], ())
  receive _ x _ := (x.values.flatMap fun v => [⟨x.time, [v]⟩, ⟨x.time + 1, [v + 1]⟩], ())

/-- C79 is violated in this sense: a pipeline may answer one sample with several messages, as a resampler does, and only the first of them reaches the output. -/
theorem C79_violated_first : ∃ (b : Bridge Unit Nat) (r : Redis Unit Nat), (b.receive b!"x" ⟨5, [30]⟩ ()).1.map (fun m => (m.time, m.values)) = [(5, [30]), (6, [31])] ∧
    seen b!"out" (rtbotRun (demoEnv b) () b!"x" b!"p" b!"in" b!"out" false r) = ⟨b!"ok", some [(1, 10), (2, 20), (5, 30)], [], []⟩ :=
  ⟨doublingLib, demoServer none, by decide +kernel, by decide +kernel⟩

/-- The server after a client has written the input series. -/
def withSeries (k : Str) (l : List (UInt64 × V)) (r : Redis β V) : Redis β V := { r with db := r.db.put k (.series false l) }

/-- C79 is violated in this sense: a run that fails because the input is missing leaves its pipeline behind, and the same run is refused after the input is there. -/
theorem C79_violated_left : ∃ r : Redis (Map Nat) Nat,
    seen b!"out" (rtbotRun (demoEnv countingLib) [] b!"x" b!"p" b!"late" b!"out" false r) = ⟨b!"error", none, [], [(b!"late", b!"out", b!"x")]⟩ ∧
    seen b!"out" (rtbotRun (demoEnv countingLib) [] b!"y" b!"p" b!"late" b!"out" false
      (withSeries b!"late" [(1, 10)] (rtbotRun (demoEnv countingLib) [] b!"x" b!"p" b!"late" b!"out" false r).state)) = ⟨b!"error", none, [], [(b!"late", b!"out", b!"x")]⟩ ∧
    seen b!"out" (rtbotRun (demoEnv countingLib) [] b!"y" b!"p" b!"late" b!"out" false (withSeries b!"late" [(1, 10)] r)) = ⟨b!"ok", some [(1, 1)], [], []⟩ :=
  ⟨demoServer none, by decide +kernel, by decide +kernel, by decide +kernel⟩

/-- C79 is violated in this sense: a pipeline that was kept gets the whole series again when another program is run on the same input, and its output changes. -/
theorem C79_violated_replay : ∃ r : Redis (Map Nat) Nat, RsSteady (registryOf [] r) ∧ pipeBetween (registryOf [] r) b!"in" b!"other" = some b!"x" ∧
    tsRange b!"other" r = some [(1, 1), (2, 2), (5, 3)] ∧
    seen b!"other" (rtbotRun (demoEnv countingLib) [] b!"y" b!"p" b!"in" b!"out" false r) = ⟨b!"ok", some [(1, 4), (2, 5), (5, 6)], [], [(b!"in", b!"other", b!"x")]⟩ := by
  refine ⟨(rtbotRun (demoEnv countingLib) [] b!"x" b!"p" b!"in" b!"other" true (demoServer none)).state, ?_, by decide +kernel, by decide +kernel, by decide +kernel⟩
  obtain ⟨r', g, S, h1, _, _, _, _, h6, h7, _⟩ := C79_run (env := demoEnv countingLib) (lib := []) (lib1 := [(b!"x", 0)]) (fresh := b!"x") (program := b!"p") (input := b!"in")
    (output := b!"other") (r := demoServer none) (samples := [(1, 10), (2, 20), (5, 30)]) (xs := [(1, 1), (2, 2), (5, 3)])
    ⟨⟨rfl, .nil, fun _ _ h => by cases h⟩, ⟨b!"{}", redisDemo, rfl, rfl, by decide +kernel, rfl⟩, rfl, by decide, fun _ => rfl, fun _ => rfl⟩
    (.cons (.mk 1 1 [] []) (.cons (.mk 2 2 [] []) (.cons (.mk 5 3 [] []) .nil))) (fun _ _ => rfl) true (fun h => by cases h)
  rw [h1]
  unfold registryOf Fate.state
  rw [h6]
  exact h7

/-! ## C80 -/

/-- A sample that Redis takes enters a sorted series. -/
theorem insert_stored (last : Bool) (t : UInt64) (v : V) : ∀ l : List (UInt64 × V), l.Pairwise (fun y z => y.1 < z.1) →
    (insertSample last t v l = none ∧ last = false ∧ ∃ y ∈ l, y.1 = t) ∨
    ∃ l', insertSample last t v l = some l' ∧ (last = true ∨ ∀ y ∈ l, y.1 ≠ t) ∧ l'.Pairwise (fun y z => y.1 < z.1) ∧ ∀ y, y ∈ l' ↔ y = (t, v) ∨ y ∈ l ∧ y.1 ≠ t := by
  intro l
  induction l with
  | nil => intro _; exact .inr ⟨[(t, v)], rfl, .inr fun y hy => (by cases hy), by simp, by simp⟩
  | cons x l ih =>
    obtain ⟨t', v'⟩ := x
    intro hl
    have hl' := List.pairwise_cons.1 hl
    unfold insertSample
    by_cases h1 : t < t'
    · rw [if_pos h1]
      have hall : ∀ y ∈ (t', v') :: l, t < y.1 := by
        intro y hy
        rcases List.mem_cons.1 hy with rfl | hy
        · exact h1
        · exact UInt64.lt_trans h1 (hl'.1 y hy)
      refine .inr ⟨_, rfl, .inr fun y hy => (UInt64.ne_of_lt (hall y hy)).symm, List.pairwise_cons.2 ⟨hall, hl⟩, fun y => ?_⟩
      rw [List.mem_cons]
      exact or_congr_right ⟨fun h => ⟨h, (UInt64.ne_of_lt (hall y h)).symm⟩, fun h => h.1⟩
    · rw [if_neg h1]
      by_cases h2 : t = t'
      · subst h2
        rw [if_pos rfl]
        cases last with
        | false => exact .inl ⟨rfl, rfl, (t, v'), List.mem_cons_self .., rfl⟩
        | true =>
          refine .inr ⟨_, rfl, .inl rfl, List.pairwise_cons.2 hl', fun y => ?_⟩
          rw [List.mem_cons, List.mem_cons]
          refine or_congr_right ⟨fun h => ⟨.inr h, (UInt64.ne_of_lt (hl'.1 y h)).symm⟩, ?_⟩
          rintro ⟨rfl | h, hn⟩
          · exact absurd rfl hn
          · exact h
      · rw [if_neg h2]
        have h3 : t' < t := UInt64.lt_of_le_of_ne (UInt64.not_lt.1 h1) (Ne.symm h2)
        rcases ih hl'.2 with ⟨g1, g2, y, hy, hy'⟩ | ⟨l', g1, g2, g3, g4⟩
        · rw [g1]
          exact .inl ⟨rfl, g2, y, List.mem_cons_of_mem _ hy, hy'⟩
        · rw [g1]
          refine .inr ⟨_, rfl, ?_, List.pairwise_cons.2 ⟨fun y hy => ?_, g3⟩, fun y => ?_⟩
          · refine g2.imp_right fun h y hy => ?_
            rcases List.mem_cons.1 hy with rfl | hy
            · exact Ne.symm h2
            · exact h y hy
          · rcases (g4 y).1 hy with rfl | hy
            · exact h3
            · exact hl'.1 y hy.1
          · rw [List.mem_cons, List.mem_cons, g4]
            constructor
            · rintro (rfl | h | ⟨h, hn⟩)
              · exact .inr ⟨.inl rfl, Ne.symm h2⟩
              · exact .inl h
              · exact .inr ⟨.inr h, hn⟩
            · rintro (h | ⟨h | h, hn⟩)
              · exact .inr (.inl h)
              · exact .inl h
              · exact .inr (.inr ⟨h, hn⟩)

/-- The server after `ts.add`, whether it succeeds or not. -/
def tried (wire : V → Option V) (o : Str) (t : UInt64) (v : V) (r : Redis β V) : Redis β V :=
  match tsAdd wire o t v r with
  | some r => r
  | none => r

theorem tried_stored {wire : V → Option V} {v : V} (hw : wire v = some v) (o : Str) (t : UInt64) (r : Redis β V) (hs : SeriesSorted r.db) :
    Stored (t, v) (r.db.find? o) ((tried wire o t v r).db.find? o) ∧ (∀ k, k ≠ o → (tried wire o t v r).db.find? k = r.db.find? k) ∧
    (tried wire o t v r).registry = r.registry ∧ (tried wire o t v r).published = r.published := by
  unfold tried tsAdd
  simp only [hw]
  cases hf : r.db.find? o with
  | none =>
    dsimp only
    rw [Map.find?_put_self]
    exact ⟨.fresh, fun k hk => Map.find?_put_ne _ _ hk, rfl, rfl⟩
  | some e =>
    cases e with
    | json s =>
      dsimp only
      rw [hf]
      exact ⟨.json s, fun k hk => rfl, rfl, rfl⟩
    | series last l =>
      dsimp only
      rcases insert_stored last t v l (hs o last l hf) with ⟨g1, g2, g3⟩ | ⟨l', g1, g2, g3, g4⟩
      · rw [g1]
        dsimp only [Option.map_none]
        rw [hf, g2]
        exact ⟨.refused l g3, fun k hk => rfl, rfl, rfl⟩
      · rw [g1]
        dsimp only [Option.map_some]
        rw [Map.find?_put_self]
        exact ⟨.put last l l' g2 g3 g4, fun k hk => Map.find?_put_ne _ _ hk, rfl, rfl⟩

theorem stored_keeps {x : UInt64 × V} {e e' : Option (Entry V)} (h : Stored x e e') (hs : ∀ last l, e = some (.series last l) → l.Pairwise fun y z => y.1 < z.1) :
    ∀ last l, e' = some (.series last l) → l.Pairwise fun y z => y.1 < z.1 := by
  intro last l he
  cases h with
  | fresh => cases he; simp
  | json s => cases he
  | refused l h => cases he; exact hs _ _ rfl
  | put last l l' h hp hm => cases he; exact hp

theorem tried_sorted {wire : V → Option V} {v : V} (hw : wire v = some v) (o : Str) (t : UInt64) (r : Redis β V) (hs : SeriesSorted r.db) :
    SeriesSorted (tried wire o t v r).db := by
  obtain ⟨h1, h2, _⟩ := tried_stored hw o t r hs
  intro k last l hk
  by_cases hko : k = o
  · subst hko
    exact stored_keeps h1 (hs k) last l hk
  · rw [h2 k hko] at hk
    exact hs k last l hk

/-- What the handler does with results: for each one with messages the first value is stored and published. -/
theorem publishAll_run {wire : V → Option V} : ∀ (res : List (Str × List (RsMsg V))) (r : Redis β V), (res.map (·.1)).Nodup → SeriesSorted r.db →
    (∀ e ∈ res, e.2 = [] ∨ ∃ x, First e.2 x ∧ wire x.2 = some x.2) →
    ∃ r', publishAll wire res r = .ok () r' ∧ r'.registry = r.registry ∧
      (∀ k, (∀ m ms, (k, m :: ms) ∉ res) → r'.db.find? k = r.db.find? k) ∧
      (∀ k ms x, (k, ms) ∈ res → First ms x → Stored x (r.db.find? k) (r'.db.find? k)) ∧
      ∃ ps, r'.published = r.published ++ ps ∧ List.Forall₂ (fun (e : Str × List (RsMsg V)) (p : Str × UInt64 × V) => p.1 = e.1 ++ b!":ps" ∧ First e.2 p.2)
        (res.filter fun e => !e.2.isEmpty) ps := by
  intro res
  induction res with
  | nil => intro r _ _ _; exact ⟨r, rfl, rfl, fun _ _ => rfl, fun _ _ _ h => (by cases h), [], by simp, .nil⟩
  | cons e res ih =>
    obtain ⟨o, ms⟩ := e
    intro r hn hs hf
    rw [List.map_cons, List.nodup_cons] at hn
    have hf' : ∀ e ∈ res, e.2 = [] ∨ ∃ x, First e.2 x ∧ wire x.2 = some x.2 := fun e he => hf e (List.mem_cons_of_mem _ he)
    have hnot : ∀ ms', (o, ms') ∉ res := fun ms' hm => hn.1 (List.mem_map.2 ⟨_, hm, rfl⟩)
    rcases hf (o, ms) (List.mem_cons_self ..) with h | ⟨x, hx, hwx⟩
    · dsimp only at h
      subst h
      obtain ⟨r', g1, g2, g3, g4, ps, g5, g6⟩ := ih r hn.2 hs hf'
      refine ⟨r', by unfold publishAll; exact g1, g2, fun k hk => g3 k fun m ms hm => hk m ms (List.mem_cons_of_mem _ hm), fun k ms x hm hx => ?_, ps, g5, ?_⟩
      · rcases List.mem_cons.1 hm with h | hm
        · cases h
          cases hx
        · exact g4 k ms x hm hx
      · simpa using g6
    · cases hx with
      | mk t v vs ms =>
        obtain ⟨s1, s2, s3, s4⟩ := tried_stored hwx o t r hs
        dsimp only at s1 s2 s3 s4
        obtain ⟨r', g1, g2, g3, g4, ps, g5, g6⟩ := ih { tried wire o t v r with published := (tried wire o t v r).published ++ [(o ++ b!":ps", t, v)] } hn.2
          (tried_sorted hwx o t r hs) hf'
        refine ⟨r', ?_, g2.trans s3, fun k hk => ?_, fun k ms' x hm hx => ?_, (o ++ b!":ps", t, v) :: ps, ?_, ?_⟩
        · unfold publishAll
          exact g1
        · rw [g3 k fun m ms hm => hk m ms (List.mem_cons_of_mem _ hm)]
          refine s2 k fun hko => ?_
          subst hko
          exact hk _ _ (List.mem_cons_self ..)
        · rcases List.mem_cons.1 hm with h | hm
          · cases h
            cases hx
            rw [g3 o fun m ms hm => hnot _ hm]
            exact s1
          · have hko : k ≠ o := fun hc => hnot ms' (hc ▸ hm)
            rw [← s2 k hko]
            exact g4 k ms' x hm hx
        · rw [g5]
          simp [s4]
        · simp only [List.isEmpty_cons, List.filter_cons, Bool.not_false, if_true]
          exact .cons ⟨rfl, .mk t v vs ms⟩ g6

/-- Two lists with ascending keys and the same elements are the same. -/
theorem sorted_ids_unique {l l' : List (Str × Str)} (h : (l.map (·.1)).Pairwise fun k k' => strLt k k' = true) (h' : (l'.map (·.1)).Pairwise fun k k' => strLt k k' = true)
    (hm : ∀ o id, (o, id) ∈ l ↔ (o, id) ∈ l') : l = l' := by
  rw [List.pairwise_map] at h h'
  have nd : ∀ l : List (Str × Str), l.Pairwise (fun x y => strLt x.1 y.1 = true) → l.Nodup := fun l hl =>
    hl.imp fun {a b} hab hc => by subst hc; rw [strLt_irrefl] at hab; cases hab
  refine List.Perm.eq_of_pairwise (fun a b _ _ h1 h2 => ?_) h h' ((List.perm_ext_iff_of_nodup (nd l h) (nd l' h')).2 fun e => hm e.1 e.2)
  rw [strLt_asymm h1] at h2
  cases h2

/-- C80: a sample that is newer than all samples of its series is added at the end and goes to each pipeline that begins there, once and in the order of the output keys. For each result with
messages the first value of the first message is stored in the output series and published; nothing else changes. -/
theorem C80_added_partial {b : Bridge β V} {wire : V → Option V} {key : Str} {t : UInt64} {v : V} {db : Map (Entry V)} {pub : List (Str × UInt64 × V)} {g : Rs β}
    (hg : RsSteady g) (hs : SeriesSorted db) (hw : wire v = some v) {last : Bool} {l : List (UInt64 × V)} (hl : db.find? key = some (.series last l))
    (hnew : ∀ x ∈ l, x.1 < t) {ids : List (Str × Str)} (hids : (ids.map (·.1)).Pairwise fun k k' => strLt k k' = true)
    (hmem : ∀ o id, (o, id) ∈ ids ↔ pipeBetween g key o = some id) (hres : ∀ e ∈ (turns b ⟨t, [v]⟩ ids g.lib).1, e.2 = [] ∨ ∃ x, First e.2 x ∧ wire x.2 = some x.2) :
    ∃ r' : Redis β V, addSample b wire key t v ⟨db, pub, some g⟩ = .ok () r' ∧ r'.registry = some { g with lib := (turns b ⟨t, [v]⟩ ids g.lib).2 } ∧
      (∀ k, k ≠ key → (∀ m ms, (k, m :: ms) ∉ (turns b ⟨t, [v]⟩ ids g.lib).1) → r'.db.find? k = db.find? k) ∧
      ((∀ m ms, (key, m :: ms) ∉ (turns b ⟨t, [v]⟩ ids g.lib).1) → r'.db.find? key = some (.series last (l ++ [(t, v)]))) ∧
      (∀ k ms x, (k, ms) ∈ (turns b ⟨t, [v]⟩ ids g.lib).1 → First ms x →
        Stored x (if k = key then some (.series last (l ++ [(t, v)])) else db.find? k) (r'.db.find? k)) ∧
      ∃ ps, r'.published = pub ++ ps ∧ List.Forall₂ (fun (e : Str × List (RsMsg V)) (p : Str × UInt64 × V) => p.1 = e.1 ++ b!":ps" ∧ First e.2 p.2)
        ((turns b ⟨t, [v]⟩ ids g.lib).1.filter fun e => !e.2.isEmpty) ps := by
  have hins : insertSample last t v l = some (l ++ [(t, v)]) := by
    clear hl
    induction l with
    | nil => rfl
    | cons x l ih =>
      have hx := hnew x (List.mem_cons_self ..)
      unfold insertSample
      rw [if_neg (UInt64.lt_asymm hx), if_neg (UInt64.ne_of_lt hx).symm, ih fun y hy => hnew y (List.mem_cons_of_mem _ hy)]
      rfl
  obtain ⟨ids', h1, h2, h3⟩ := C75_receive b key ⟨t, [v]⟩ g hg
  have hsame : ids' = ids := sorted_ids_unique h1 hids fun o id => (h2 o id).trans (hmem o id).symm
  subst hsame
  have hkeys : ∀ (ids : List (Str × Str)) (lib : β), (turns b ⟨t, [v]⟩ ids lib).1.map (·.1) = ids.map (·.1) := by
    intro ids
    induction ids with
    | nil => intro _; rfl
    | cons e ids ih => intro lib; unfold turns; simp [ih]
  have hnd : ((turns b ⟨t, [v]⟩ ids' g.lib).1.map (·.1)).Nodup := by
    rw [hkeys]
    exact h1.imp fun {a b} hab hc => by subst hc; rw [strLt_irrefl] at hab; cases hab
  have hs1 : SeriesSorted (db.put key (.series last (l ++ [(t, v)]))) := by
    intro k last' l' hk
    rw [Map.find?_put] at hk
    split at hk
    · cases hk
      refine List.pairwise_append.2 ⟨hs key last l hl, by simp, fun x hx y hy => ?_⟩
      cases List.mem_singleton.1 hy
      exact hnew x hx
    · exact hs k last' l' hk
  obtain ⟨r', p1, p2, p3, p4, ps, p5, p6⟩ := publishAll_run (wire := wire) (turns b ⟨t, [v]⟩ ids' g.lib).1
    ⟨db.put key (.series last (l ++ [(t, v)])), pub, some { g with lib := (turns b ⟨t, [v]⟩ ids' g.lib).2 }⟩ hnd hs1 hres
  refine ⟨r', ?_, p2, fun k hk hno => (p3 k hno).trans (Map.find?_put_ne _ _ hk), fun hno => (p3 key hno).trans (Map.find?_put_self ..), fun k ms x hm hx => ?_, ps, p5, p6⟩
  · unfold addSample tsAdd
    simp only [hw, hl, hins, Option.map_some]
    unfold onAdd tsRange
    simp only [Map.find?_put_self, List.getLast?_append, List.getLast?_singleton, Option.some_or, h3, p1]
  · have := p4 k ms x hm hx
    rw [Map.find?_put] at this
    by_cases hk : k = key
    · subst hk
      rw [if_pos rfl] at this ⊢
      exact this
    · rw [if_neg hk]
      simpa only [if_neg hk] using this

/-- The server after `rtbot.xrun`. -/
def demoRunning : Redis (Map Nat) Nat := (xrunCommand (demoEnv countingLib) [] b!"x" [b!"p", b!"in", b!"out"] (demoServer none)).state

/-- How an event ends, and what can be seen then. -/
def eventSeen (k : Str) : Fate (Redis β Nat) Unit → Str × Option (List (UInt64 × Nat)) × List (Str × UInt64 × Nat)
  | .ok _ r => (b!"ok", tsRange k r, r.published)
  | .err r => (b!"error", tsRange k r, r.published)
  | .panic r => (b!"panic", tsRange k r, r.published)
  | .hang r => (b!"hang", tsRange k r, r.published)

/-- A concrete case: a new sample is counted as well, and the count is stored and published. -/
example : eventSeen b!"out" (addSample countingLib some b!"in" 9 70 demoRunning) = (b!"ok", some [(1, 1), (2, 2), (5, 3), (9, 4)], [(b!"out:ps", 9, 4)]) := by
  decide +kernel

/-- The hypotheses of `C80_added_partial` hold for a pipeline that has counted one sample. -/
example : let g : Rs (Map Nat) := ⟨[(b!"in", [(b!"out", b!"x")])], false, [(b!"x", 1)]⟩
    let db : Map (Entry Nat) := [(b!"in", .series false [(1, 10)])]
    RsSteady g ∧ SeriesSorted db ∧ (∀ o id, (o, id) ∈ [(b!"out", b!"x")] ↔ pipeBetween g b!"in" o = some id) ∧
    ∀ e ∈ (turns countingLib ⟨9, [70]⟩ [(b!"out", b!"x")] g.lib).1, e.2 = [] ∨ ∃ x : UInt64 × Nat, First e.2 x ∧ some x.2 = some x.2 := by
  intro g db
  have hpipe : ∀ o, pipeBetween g b!"in" o = if b!"out" = o then some b!"x" else none := fun o => by
    by_cases h : b!"out" = o
    · subst h; rfl
    · rw [if_neg h]
      show Map.find? [(b!"out", b!"x")] o = none
      rw [Map.find?_none_iff]
      simpa [Map.keys] using Ne.symm h
  refine ⟨⟨rfl, by simp [Map.Sorted, Map.keys, g], fun i m h => ?_⟩, fun k last l h => ?_, fun o id => ?_, fun e he => ?_⟩
  · by_cases hi : i = b!"in"
    · subst hi
      cases h
      simp [Map.Sorted, Map.keys]
    · exfalso
      have : Map.find? g.pipelines i = none := by rw [Map.find?_none_iff]; simpa [Map.keys, g] using hi
      rw [this] at h
      cases h
  · by_cases hk : k = b!"in"
    · subst hk
      cases h
      simp
    · exfalso
      have : Map.find? db k = none := by rw [Map.find?_none_iff]; simpa [Map.keys, db] using hk
      rw [this] at h
      cases h
  · rw [hpipe]
    by_cases h : b!"out" = o
    · subst h; simp [eq_comm]
    · rw [if_neg h]; simp [Ne.symm h]
  · cases List.mem_singleton.1 he
    exact .inr ⟨(9, 2), .mk 9 2 [] [], rfl⟩

/-- C80 is violated: before the first `rtbot.run` there is no registry, and any `ts.add` makes the handler panic. -/
theorem C80_violated_panic (b : Bridge β V) (wire : V → Option V) (key : Str) (t : UInt64) (v : V) (r r' : Redis β V) (hr : r.registry = none)
    (ha : tsAdd wire key t v r = some r') : ∃ s, addSample b wire key t v r = .panic s := by
  have hreg : r'.registry = none := by
    unfold tsAdd at ha
    cases hw : wire v with
    | none => rw [hw] at ha; cases ha
    | some w =>
      rw [hw] at ha
      dsimp only at ha
      cases hf : r.db.find? key with
      | none => rw [hf] at ha; cases ha; exact hr
      | some e =>
        cases e with
        | json s => rw [hf] at ha; cases ha
        | series last l =>
          rw [hf] at ha
          dsimp only at ha
          cases hi : insertSample last t w l with
          | none => rw [hi] at ha; cases ha
          | some l' => rw [hi] at ha; cases ha; exact hr
  unfold addSample
  rw [ha]
  dsimp only
  unfold onAdd
  cases tsRange key r' with
  | none => exact ⟨_, rfl⟩
  | some l =>
    dsimp only
    cases l.getLast? with
    | none => exact ⟨_, rfl⟩
    | some x =>
      dsimp only
      rw [hreg]
      exact ⟨_, rfl⟩

/-- A concrete case for the theorem before. -/
example : (tsAdd some b!"in" 9 70 (demoServer (β := Map Nat) none)).isSome = true := by decide +kernel

/-- C80 is violated: a sample that is not the newest is not sent; the newest is sent a second time instead. -/
theorem C80_violated_old : ∃ r : Redis (Map Nat) Nat, r.registry ≠ none ∧
    eventSeen b!"out" (addSample countingLib some b!"in" 3 70 r) = (b!"ok", some [(1, 1), (2, 2), (5, 4)], [(b!"out:ps", 5, 4)]) := by
  refine ⟨demoRunning, fun h => ?_, by decide +kernel⟩
  have : demoRunning.registry.isSome = true := by decide +kernel
  rw [h] at this
  cases this

/-! ## C81 -/

/-- C81: the programs that the module takes. -/
theorem C81_accepts (j : Json V) : redisSchema.accepts j = true ↔ RedisProgram j := redisSchema_iff

/-- C81: a program that the library accepts is accepted by the module as well if it has a title and an entry node, there are no ports in its connections, and the members that only the
module knows are as it wants them. -/
theorem C81_both_partial {parse : Parser V} {s : Str} {j : Json V} (h : validates parse s = true) (hj : parse s = .ok j) (title : ∃ x, Member j b!"title" x)
    (entry : Needs j b!"entryNode" IsText) (ports : ∀ cs, Member j b!"connections" cs → ∀ c ∈ cs.items, OnlyKeys c [b!"from", b!"to"])
    (params : ∀ os, Member j b!"operators" os → ∀ x ∈ os.items, May x b!"parameters" (ListOf RedisParam)) (version : May j b!"version" IsText)
    (optim : May j b!"optim" fun x => (∃ m, x = .obj m) ∧ May x b!"algorithm" IsText) : redisSchema.accepts j = true := by
  obtain ⟨j', h1, hd⟩ := (C60_program parse s).1 h
  cases hj.symm.trans h1
  refine (C81_accepts j).2 ⟨?_, entry, ?_, ?_, ?_, optim⟩
  · obtain ⟨x, hx⟩ := title
    exact ⟨x, hx, hd.texts b!"title" (by simp) x hx⟩
  · obtain ⟨os, ho, l, rfl, hl⟩ := hd.operators
    refine ⟨_, ho, l, rfl, fun x hx => ?_⟩
    obtain ⟨t, ht⟩ := hl x hx
    exact ⟨ht.id, ⟨_, ht.type, t, rfl⟩, params _ ho x hx⟩
  · obtain ⟨cs, hc, l, rfl, hl⟩ := hd.connections
    exact ⟨_, hc, l, rfl, fun x hx => ⟨(hl x hx).src, (hl x hx).dst, ports _ hc x hx⟩⟩
  · intro k hk
    simp only [List.mem_cons, List.not_mem_nil, or_false] at hk
    rcases hk with rfl | rfl | rfl | rfl
    · exact hd.texts _ (by simp)
    · exact version
    · exact hd.texts _ (by simp)
    · exact hd.texts _ (by simp)

/-- A concrete case for the theorem before: a program that both accept. -/
def bothProg : Json V :=
  .obj [(b!"connections", .arr [.obj [(b!"from", .str b!"in"), (b!"to", .str b!"out")]]), (b!"entryNode", .str b!"in"), (b!"entryOperator", .str b!"in"),
    (b!"operators", .arr [.obj [(b!"id", .str b!"in"), (b!"type", .str b!"Input")], .obj [(b!"id", .str b!"out"), (b!"type", .str b!"Output")]]), (b!"title", .str b!"t")]

example : validates (parsed (bothProg : Json Nat)) [] = true ∧ redisSchema.accepts (bothProg : Json Nat) = true := by constructor <;> decide +kernel

/-- C81 is violated: the library asks for "entryOperator", which the module does not know; the module asks for "entryNode" and a title, which the library does not know. So a program as the
library wants it is refused by the module, and one as the module wants it by the library. -/
theorem C81_violated_entry : ∃ j j' : Json Nat, validates (parsed j) [] = true ∧ redisSchema.accepts j = false ∧ validates (parsed j') [] = false ∧ redisSchema.accepts j' = true :=
  ⟨sumProg, redisDemo, by decide +kernel, by decide +kernel, by decide +kernel, by decide +kernel⟩

/-- C81 is violated: no program in which a connection names a port is accepted by the module, so that those operators with several ports are of no use there. -/
theorem C81_violated_ports {j cs c : Json V} (hc : Member j b!"connections" cs) (hm : c ∈ cs.items) {k : Str} (hk : k ∈ [b!"fromPort", b!"toPort"]) {x : Json V} (hx : Member c k x) :
    redisSchema.accepts j = false := by
  cases h : redisSchema.accepts j with
  | false => rfl
  | true =>
    exfalso
    obtain ⟨cs', hc', l, rfl, hl⟩ := ((C81_accepts j).1 h).connections
    cases hc.unique hc'
    obtain ⟨_, _, m, rfl, hkeys⟩ := hl c hm
    obtain ⟨m', hm', hx'⟩ := hx
    cases hm'
    have hin : k ∈ Map.keys m := by
      by_contra hn
      rw [(Map.find?_none_iff _ _).2 hn] at hx'
      cases hx'
    have := hkeys k hin
    simp only [List.mem_cons, List.not_mem_nil, or_false] at hk this
    rcases hk with rfl | rfl <;> rcases this with h | h <;> exact absurd h (by decide)

end Rtbot
