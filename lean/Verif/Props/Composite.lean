import Verif.Lemmas.Composite
import Verif.Lemmas.Flatten
import Verif.Spec.Toy
import Verif.Model.Codec

set_option linter.unusedSectionVars false

/-! # C76: Composites are what the calls that build them ask for. C77: a Composite does what its operators do. C78: saving a Composite -/

namespace Rtbot
variable {V : Type} [Num V]
open Spec

/-! ## C76 -/

/-- C76: after any calls, whether they returned or threw, the Composite consists of the operators that the permitted calls ask for, as their constructors make
them, with exactly the connections asked for, and it has the ports of its Input and its Output. No other object has changed. -/
theorem C76_plan {m : Mem V} (hm : ∀ a, m.next ≤ a → m.heap a = none) (id : Str) (xs : List (CompCall V)) :
    ∃ p, Plan.After Plan.empty xs p ∧ Carries m id (Comp.built (Comp.new m id) xs) p := by
  obtain ⟨h1, h2⟩ := held_new hm id
  obtain ⟨p, me, h3, h4, h5⟩ := held_built xs h1 h2
  exact ⟨p, h3, h4.carries h5⟩

/-- C76: a call returns when it is permitted: for an operator the id must be new, there may be one Input and one Output, and the constructor must accept the
arguments; for a connection there must be such operators with such ports. Otherwise it fails and has no effect at all. -/
theorem C76_call {m : Mem V} (hm : ∀ a, m.next ≤ a → m.heap a = none) (id : Str) (xs : List (CompCall V)) (x : CompCall V) :
    ∃ p, Plan.After Plan.empty xs p ∧ ((∃ c', x.on (Comp.built (Comp.new m id) xs) = .ok () c') ↔ ∃ p', p.Takes x p') ∧
      ∀ e c', x.on (Comp.built (Comp.new m id) xs) = .err e c' → c' = Comp.built (Comp.new m id) xs := by
  obtain ⟨h1, h2⟩ := held_new hm id
  obtain ⟨p, me, h3, h4, h5⟩ := held_built xs h1 h2
  refine ⟨p, h3, ?_⟩
  rcases does_any h4 h5 x with ⟨p', c', me', g1, g2, g3, g4⟩ | ⟨g1, e, g2⟩
  · rw [g2]
    exact ⟨⟨fun _ => ⟨p', g1⟩, fun _ => ⟨c', rfl⟩⟩, fun e c h => (by cases h)⟩
  · rw [g2]
    exact ⟨⟨fun ⟨c', h⟩ => (by cases h), fun ⟨p', h⟩ => absurd h (g1 p')⟩, fun e c h => (by cases h; rfl)⟩

theorem means_output_unique {c : Core V} {n x y : Str} (h : MeansOutput c n x) (h' : MeansOutput c n y) : x = y := by
  obtain ⟨_, h1, h2⟩ := h
  obtain ⟨_, h3, h4⟩ := h'
  rcases h2 with rfl | ⟨rfl, h2⟩ <;> rcases h4 with rfl | ⟨h5, h4⟩
  · rfl
  · exact absurd h5 h1
  · exact absurd rfl h3
  · rw [h2] at h4
    cases h4
    rfl

theorem means_input_unique {c : Core V} {n x y : Str} (h : MeansInput c n x) (h' : MeansInput c n y) : x = y := by
  obtain ⟨_, h1, h2⟩ := h
  obtain ⟨_, h3, h4⟩ := h'
  rcases h2 with rfl | ⟨rfl, h2, _⟩ <;> rcases h4 with rfl | ⟨h5, h4, _⟩
  · rfl
  · exact absurd h5 h1
  · exact absurd rfl h3
  · rw [h2] at h4
    cases h4
    rfl

theorem takes_once {p p' : Plan V} {x : CompCall V} (h : p.Takes x p') (hn : (p.ops.map Prod.fst).Nodup) : (p'.ops.map Prod.fst).Nodup := by
  have key : ∀ {id : Str} {o : Op V}, ¬ p.Used id → ((p.ops ++ [(id, o)]).map Prod.fst).Nodup := by
    intro id o hu
    rw [List.map_append]
    refine List.nodup_append.2 ⟨hn, by simp, ?_⟩
    intro a ha b hb
    simp only [List.map_cons, List.map_nil, List.mem_singleton] at hb
    rintro rfl
    obtain ⟨e, he, hea⟩ := List.mem_map.1 ha
    exact hu ⟨e.2, by rw [← hb, ← hea]; exact he⟩
  cases h with
  | input new _ _ _ => exact key new
  | output new _ _ _ => exact key new
  | create new _ => exact key new
  | connect => exact hn

theorem takes_unique {p p' p'' : Plan V} {x : CompCall V} (hn : (p.ops.map Prod.fst).Nodup) (h : p.Takes x p') (h' : p.Takes x p'') : p' = p'' := by
  cases h with
  | input _ _ _ m1 => cases h' with | input _ _ _ m2 => rw [m1] at m2; cases m2; rfl
  | output _ _ _ m1 => cases h' with | output _ _ _ m2 => rw [m1] at m2; cases m2; rfl
  | create _ m1 => cases h' with | create _ m2 => rw [m1] at m2; cases m2; rfl
  | connect a1 b1 c1 d1 =>
    cases h' with
    | connect a2 b2 c2 d2 =>
      have e1 := congrArg Prod.snd (List.inj_on_of_nodup_map hn a1 a2 rfl)
      have e2 := congrArg Prod.snd (List.inj_on_of_nodup_map hn b1 b2 rfl)
      dsimp only at e1 e2
      subst e1 e2
      rw [means_output_unique c1 c2, means_input_unique d1 d2]

/-- C76: the calls leave no choice: there is one plan. -/
theorem C76_unique (xs : List (CompCall V)) {p q : Plan V} (h : Plan.After Plan.empty xs p) (h' : Plan.After Plan.empty xs q) : p = q := by
  have key : ∀ (xs : List (CompCall V)) {r p q : Plan V}, (r.ops.map Prod.fst).Nodup → r.After xs p → r.After xs q → p = q := by
    intro xs
    induction xs with
    | nil => intro r p q _ h h'; cases h; cases h'; rfl
    | cons x xs ih =>
      intro r p q hn h h'
      cases h with
      | taken h1 h2 =>
        cases h' with
        | taken h3 h4 =>
          cases takes_unique hn h1 h3
          exact ih (takes_once h1 hn) h2 h4
        | refused h3 h4 => exact absurd h1 (h3 _)
      | refused h1 h2 =>
        cases h' with
        | taken h3 h4 => exact absurd h3 (h1 _)
        | refused h3 h4 => exact ih hn h2 h4
  exact key xs (r := Plan.empty) List.nodup_nil h h'

/-- C76: `getOperator` finds the operators of the plan and no others; a call that creates an operator returns its id. -/
theorem C76_operator {m : Mem V} (hm : ∀ a, m.next ≤ a → m.heap a = none) (id : Str) (xs : List (CompCall V)) :
    ∃ p, Plan.After Plan.empty xs p ∧ ∀ i, (∃ a, (Comp.built (Comp.new m id) xs).getOperator i = .ok a) ↔ p.Used i := by
  obtain ⟨h1, h2⟩ := held_new hm id
  obtain ⟨p, me, h3, h4, h5⟩ := held_built xs h1 h2
  refine ⟨p, h3, fun i => ?_⟩
  unfold Comp.getOperator
  constructor
  · rintro ⟨a, ha⟩
    cases hf : (Comp.built (Comp.new m id) xs).ops.find? i with
    | none => rw [hf] at ha; cases ha
    | some b =>
      obtain ⟨o, _, h, _⟩ := h4.ops i b hf
      exact ⟨o, h⟩
  · intro hu
    obtain ⟨a, ha⟩ := h4.all i hu
    exact ⟨a, by rw [ha]⟩

@[inherit_doc C76_operator] theorem C76_name (c : Comp V) (id : Str) (n : Nat) (k : Creator V) :
    (∀ i c', c.create k id = .ok i c' → i = id) ∧ (∀ i c', c.createInput id n = .ok i c' → i = id) ∧ ∀ i c', c.createOutput id n = .ok i c' → i = id := by
  refine ⟨fun i c' h => ?_, fun i c' h => ?_, fun i c' h => ?_⟩
  · unfold Comp.create at h
    split at h
    · cases h
    · split at h <;> cases h
      rfl
  · unfold Comp.createInput at h
    split at h
    · cases h
    · split at h
      · split at h
        · cases h
        · split at h
          · cases h
          · split at h
            · cases h
            · dsimp only at h
              split at h
              · cases h
              · split at h <;> cases h
                rfl
      · cases h
  · unfold Comp.createOutput at h
    split at h
    · cases h
    · split at h
      · split at h
        · cases h
        · split at h
          · cases h
          · split at h <;> cases h
            rfl
      · cases h

theorem floats_denote (vs : List V) : List.Forall₂ Denotes (vs.map Json.float) vs := by
  induction vs with
  | nil => exact .nil
  | cons v vs ih => exact .cons (.float v) ih

/-- C76: the functions `create…` make the operators that a description of the same name and parameters asks for. -/
theorem C76_described {id : Str} {k : Creator V} {j : Json V} (h : Says id k j) (junk : UInt64 × V) {o : Op V} (ho : k.make id = .ok o) :
    Describes junk j o := by
  have hport : ∀ n : UInt64, n.toNat < 2 ^ 31 → portCount n.toNat = .ok n.toNat := fun n hn => by
    rcases portCount_cases n.toNat with ⟨_, h⟩ | ⟨h, _⟩
    · exact h
    · omega
  cases h with
  | add v => cases ho; exact .add ⟨_, rfl, rfl⟩ ⟨_, rfl, rfl⟩ ⟨_, rfl, rfl⟩ (.float v)
  | autoRegressive vs => cases ho; exact .autoReg ⟨_, rfl, rfl⟩ ⟨_, rfl, rfl⟩ ⟨_, rfl, rfl⟩ (floats_denote vs)
  | constant v => cases ho; exact .constant ⟨_, rfl, rfl⟩ ⟨_, rfl, rfl⟩ ⟨_, rfl, rfl⟩ (.float v)
  | cosineResampler dt => cases ho; exact .cosRes ⟨_, rfl, rfl⟩ ⟨_, rfl, rfl⟩ ⟨_, rfl, rfl⟩
  | count => cases ho; exact .count ⟨_, rfl, rfl⟩ ⟨_, rfl, rfl⟩
  | cumulativeSum => cases ho; exact .cumSum ⟨_, rfl, rfl⟩ ⟨_, rfl, rfl⟩
  | difference => cases ho; exact .difference ⟨_, rfl, rfl⟩ ⟨_, rfl, rfl⟩
  | join n hn =>
    have ho : (portCount n.toNat >>= fun n => Op.newJoin id n) = .ok o := ho
    rw [hport n hn] at ho
    exact .join ⟨_, rfl, rfl⟩ ⟨_, rfl, rfl⟩ ⟨_, rfl, rfl⟩ hn ho
  | division => cases ho; exact .binary (t := b!"Division") ⟨_, rfl, rfl⟩ ⟨_, rfl, rfl⟩ (by simp)
  | minus => cases ho; exact .binary (t := b!"Minus") ⟨_, rfl, rfl⟩ ⟨_, rfl, rfl⟩ (by simp)
  | linear vs => exact .linear ⟨_, rfl, rfl⟩ ⟨_, rfl, rfl⟩ ⟨_, rfl, rfl⟩ (floats_denote vs) ho
  | equalTo v => cases ho; exact .filter (t := b!"EqualTo") ⟨_, rfl, rfl⟩ ⟨_, rfl, rfl⟩ (by simp) ⟨_, rfl, rfl⟩ (.float v)
  | greaterThan v => cases ho; exact .filter (t := b!"GreaterThan") ⟨_, rfl, rfl⟩ ⟨_, rfl, rfl⟩ (by simp) ⟨_, rfl, rfl⟩ (.float v)
  | lessThan v => cases ho; exact .filter (t := b!"LessThan") ⟨_, rfl, rfl⟩ ⟨_, rfl, rfl⟩ (by simp) ⟨_, rfl, rfl⟩ (.float v)
  | hermiteResampler dt => cases ho; exact .hermRes ⟨_, rfl, rfl⟩ ⟨_, rfl, rfl⟩ ⟨_, rfl, rfl⟩
  | identity => cases ho; exact .identity ⟨_, rfl, rfl⟩ ⟨_, rfl, rfl⟩
  | movingAverage n => cases ho; exact .movAvg ⟨_, rfl, rfl⟩ ⟨_, rfl, rfl⟩ ⟨_, rfl, rfl⟩
  | finiteImpulseResponse vs => cases ho; exact .fir ⟨_, rfl, rfl⟩ ⟨_, rfl, rfl⟩ ⟨_, rfl, rfl⟩ (floats_denote vs)
  | «variable» n hn => cases ho; exact .variable ⟨_, rfl, rfl⟩ ⟨_, rfl, rfl⟩ (.inl ⟨_, rfl, rfl⟩) hn
  | peakDetector n => cases ho; exact .peak ⟨_, rfl, rfl⟩ ⟨_, rfl, rfl⟩ ⟨_, rfl, rfl⟩
  | standardDeviation n => cases ho; exact .stdDev ⟨_, rfl, rfl⟩ ⟨_, rfl, rfl⟩ ⟨_, rfl, rfl⟩
  | demultiplexer n hn =>
    have ho : (portCount n.toNat >>= fun n => Op.newDemux id n) = .ok o := ho
    rw [hport n hn] at ho
    exact .demux ⟨_, rfl, rfl⟩ ⟨_, rfl, rfl⟩ (.inl ⟨_, rfl, rfl⟩) hn ho
  | power v => cases ho; exact .power ⟨_, rfl, rfl⟩ ⟨_, rfl, rfl⟩ ⟨_, rfl, rfl⟩ (.float v)
  | scale v => cases ho; exact .scale ⟨_, rfl, rfl⟩ ⟨_, rfl, rfl⟩ ⟨_, rfl, rfl⟩ (.float v)
  | timeShift dt times hd ht => cases ho; exact .timeShift ⟨_, rfl, rfl⟩ ⟨_, rfl, rfl⟩ (.inl ⟨_, rfl, rfl⟩) hd (.inl ⟨_, rfl, rfl⟩) ht

/-- A moving average made by a Composite and by a description. -/
example (junk : UInt64 × ℚ) : Describes junk (.obj [(b!"id", .str b!"ma"), (b!"n", .uint 3), (b!"type", .str b!"MovingAverage")]) (Op.newMovAvg b!"ma" 3) :=
  C76_described (.movingAverage 3) junk (k := .movingAverage 3) rfl

/-- An Input, a CumulativeSum and an Output, one after the other; three of the calls are not permitted. -/
def summing : List (CompCall Int64) :=
  [.input b!"in" 1, .create b!"sum" .cumulativeSum, .create b!"sum" .count, .output b!"out" 1, .input b!"in2" 1, .connect b!"in" b!"sum" [] [],
    .connect b!"sum" b!"out" b!"o1" b!"i1", .connect b!"sum" b!"nothing" [] []]

/-- The Composite they make in an empty memory. -/
def summer : Comp Int64 := Comp.built (Comp.new ⟨fun _ => none, 0⟩ b!"c") summing

/-- The ids of the operators and where the connections lead. -/
example : summer.ops = [(b!"in", 1), (b!"out", 3), (b!"sum", 2)] ∧ connsOf summer.mem.heap 1 o1 = [⟨2, i1⟩] ∧ connsOf summer.mem.heap 2 o1 = [⟨3, i1⟩] ∧
    connsOf summer.mem.heap 3 o1 = [] := ⟨rfl, rfl, rfl, rfl⟩

/-- A call that is permitted and one that is not. -/
example : (∃ c', (CompCall.create b!"x" .count).on summer = .ok () c') ∧ (CompCall.create b!"sum" .count).on summer = .err (.exc .runtime) summer :=
  ⟨⟨_, rfl⟩, rfl⟩

/-! ## C77 -/

theorem sim_outcome {h0 : Nat → Option (Op V)} {α : Type} {r r' : Res (St V) α} (h : OpenedRes h0 r r') :
    outcome r = outcome r' ∧ Opened h0 r.state r'.state := by
  cases r <;> cases r' <;> first | exact h.elim | skip
  · obtain ⟨rfl, h⟩ := h
    exact ⟨rfl, h⟩
  · obtain ⟨rfl, h⟩ := h
    exact ⟨rfl, h⟩

theorem nd_outcome {α : Type} {r : Res (St V) α} (h : outcome r ≠ .error .diverge) : ND r := by
  intro s hs
  rw [hs] at h
  exact h rfl

theorem replies_sim {side : Bool} {h0 : Nat → Option (Op V)} (hc : Composed h0) (hw : HeapWF h0) {F f : Nat} (hf : Fuels side true F f)
    (l : List (Nat × Str × Msg V)) : ∀ s s', Opened h0 s s' →
    (if side then .error .diverge ∉ fedReplies F l s else .error .diverge ∉ fedReplies f (retargeted h0 l) s') →
    fedReplies F l s = fedReplies f (retargeted h0 l) s' ∧ Opened h0 (fedState F l s) (fedState f (retargeted h0 l) s') := by
  induction l with
  | nil => intro s s' hs _; exact ⟨rfl, hs⟩
  | cons x l ih =>
    intro s s' hs hk
    have hcons : retargeted h0 (x :: l) = (taker h0 x.1, x.2) :: retargeted h0 l := rfl
    rw [hcons] at hk ⊢
    simp only [fedReplies, fedState] at hk ⊢
    have hknown : Known side (feed F x.1 x.2.1 x.2.2 s) (feed f (taker h0 x.1) x.2.1 x.2.2 s') := by
      cases side
      · exact nd_outcome fun h => hk (by simp [h])
      · exact nd_outcome fun h => hk (by simp [h])
    obtain ⟨h1, h2⟩ := sim_outcome (feed_sim hc hw hf x.1 x.2.1 x.2.2 s s' hs hknown)
    obtain ⟨h3, h4⟩ := ih _ _ h2 (by
      cases side
      · exact fun h => hk (List.mem_cons_of_mem _ h)
      · exact fun h => hk (List.mem_cons_of_mem _ h))
    exact ⟨by rw [h1, h3], h4⟩

theorem opened_start {h0 : Nat → Option (Op V)} (hc : Composed h0) (d d' : Nat) (lg lg' : List (Ev V)) : Opened h0 ⟨h0, d, lg⟩ ⟨flattened h0, d', lg'⟩ := by
  refine ⟨.refl _, fun a ha => ?_, fun _ _ => rfl⟩
  dsimp only
  unfold flattened
  cases ho : h0 a with
  | none => exact .none
  | some o =>
    dsimp only
    cases hk : o.kind with
    | composite i q =>
      obtain ⟨j, t, rfl, hj, ht, _⟩ := hc.inputs a o i q ho hk
      rw [taker_comp ho hk] at ha
      subst ha
      rw [ho] at hj
      cases hj
      exact absurd hk ((simple_kind ht).1 _ _)
    | _ => exact .some (by simp only [unboxed, wired, hk])

/-- C77: a Composite makes no difference. Operators, some of which are in Composites, answer messages with the same reports and errors as the same operators
outside of any Composite, with the connections that lead to the Input of a Composite in place of those that lead to the Composite. -/
theorem C77_reports {h : Nat → Option (Op V)} (hc : Composed h) (hw : HeapWF h) (fuel : Nat) (l : List (Nat × Str × Msg V))
    (hd : .error .diverge ∉ fedReplies fuel l ⟨h, 0, []⟩) : fedReplies fuel (retargeted h l) ⟨flattened h, 0, []⟩ = fedReplies fuel l ⟨h, 0, []⟩ :=
  (replies_sim (side := true) hc hw (Nat.le_refl fuel) l _ _ (opened_start hc 0 0 [] []) hd).1.symm

/-- C77, the other way round: what the operators answer outside is what they answer in Composites. -/
theorem C77_converse {h : Nat → Option (Op V)} (hc : Composed h) (hw : HeapWF h) (fuel : Nat) (l : List (Nat × Str × Msg V))
    (hd : .error .diverge ∉ fedReplies fuel (retargeted h l) ⟨flattened h, 0, []⟩) :
    fedReplies (2 * fuel) l ⟨h, 0, []⟩ = fedReplies fuel (retargeted h l) ⟨flattened h, 0, []⟩ :=
  (replies_sim (side := false) hc hw (by simp [Fuels]) l _ _ (opened_start hc 0 0 [] []) hd).1

/-- C77: the operators also end up in the same state, apart from where their connections lead. -/
theorem C77_states {h : Nat → Option (Op V)} (hc : Composed h) (hw : HeapWF h) (fuel : Nat) (l : List (Nat × Str × Msg V))
    (hd : .error .diverge ∉ fedReplies fuel l ⟨h, 0, []⟩) (a : Nat) (o : Op V) (ho : (fedState fuel l ⟨h, 0, []⟩).heap a = some o)
    (hk : ∀ i q, o.kind ≠ .composite i q) :
    (fedState fuel (retargeted h l) ⟨flattened h, 0, []⟩).heap a = some { o with core := { o.core with outputs := redirected h o.core.outputs } } := by
  have := (replies_sim (side := true) hc hw (Nat.le_refl fuel) l _ _ (opened_start hc 0 0 [] []) hd).2
  obtain ⟨o0, ho0, hf⟩ := this.shape.get' ho
  have hcell := this.cells a (taker_other ho0 fun i q hk0 => hk i q (((kind_fresh hf).1 i q).2 hk0))
  rw [ho] at hcell
  cases hx : (fedState fuel (retargeted h l) ⟨flattened h, 0, []⟩).heap a with
  | none => rw [hx] at hcell; cases hcell
  | some o' =>
    rw [hx] at hcell
    cases hcell with
    | some he => rw [he]; rfl

/-- C77: the theorems apply to every Composite with an Input that is built in a memory they apply to. -/
theorem C77_built {m : Mem V} (hm : ∀ a, m.next ≤ a → m.heap a = none) (hc : Composed m.heap) (hw : HeapWF m.heap)
    (hin : ∀ a o ins outs pm k t, m.heap a = some o → o.kind = .pipeline ins outs pm → ins.find? k = some t → t < m.next) (id : Str)
    (xs : List (CompCall V)) (p : Plan V) (hp : Plan.After Plan.empty xs p) (hi : p.input ≠ none) :
    Composed (Comp.built (Comp.new m id) xs).mem.heap ∧ HeapWF (Comp.built (Comp.new m id) xs).mem.heap := by
  obtain ⟨h1, h2⟩ := held_new hm id
  obtain ⟨p', me, h3, h4, h5⟩ := held_built xs h1 h2
  cases C76_unique xs hp h3
  generalize Comp.built (Comp.new m id) xs = c at h4 h5 ⊢
  have hbase := h4.base
  have hroom := h4.room
  have hplace : ∀ a o, c.mem.heap a = some o → a < c.mem.next := by
    intro a o ho
    by_contra hge
    rw [h4.free a (by omega)] at ho
    cases ho
  have hcells : ∀ a o, c.mem.heap a = some o → (a < m.next ∧ m.heap a = some o) ∨ (a = c.self ∧ o = me) ∨ ∃ e outs, Built e ∧
      o = { e with core := { e.core with outputs := outs } } := by
    intro a o ho
    rcases Nat.lt_trichotomy a m.next with ha | ha | ha
    · exact Or.inl ⟨ha, by rw [← h4.others a ha]; exact ho⟩
    · have : a = c.self := ha.trans hbase.symm
      subst this
      rw [h5.cell] at ho
      cases ho
      exact Or.inr (Or.inl ⟨rfl, rfl⟩)
    · obtain ⟨i, hf⟩ := h4.only a ha (hplace a o ho)
      obtain ⟨e, outs, he, hh, _⟩ := h4.ops i a hf
      rw [ho] at hh
      cases hh
      exact Or.inr (Or.inr ⟨e, outs, (h4.built _ he).1, rfl⟩)
  have hold : ∀ a, a < m.next → taker c.mem.heap a = taker m.heap a := by
    intro a ha
    unfold taker
    rw [h4.others a ha]
  refine ⟨⟨fun a o i q ho hk => ?_, fun a o ins outs pm k t ho hk hf => ?_⟩, fun a o ho => ?_⟩
  · rcases hcells a o ho with ⟨ha, hh⟩ | ⟨rfl, rfl⟩ | ⟨e, outs, he, rfl⟩
    · obtain ⟨j, t, g1, g2, g3⟩ := hc.inputs a o i q hh hk
      have hj : j < m.next := by
        by_contra hge
        rw [hm j (by omega)] at g2
        cases g2
      exact ⟨j, t, g1, by rw [h4.others j hj]; exact g2, g3⟩
    · obtain ⟨x, hx⟩ := Option.ne_none_iff_exists'.1 hi
      obtain ⟨e, n, he, hmk⟩ := h5.inUsed x hx
      obtain ⟨j, hj⟩ := h4.all x ⟨e, he⟩
      obtain ⟨e', outs, he', hcell, _⟩ := h4.ops x j hj
      cases h4.unique he he'
      have hkk := h5.kind
      rw [hk, hx, Option.bind_some, hj] at hkk
      cases hkk
      refine ⟨j, _, rfl, hcell, (h4.built _ he).1.new.simple, fun p => ?_, fun p => ?_⟩
      · unfold Core.isData
        rw [Bool.eq_iff_iff, Map.has_iff, Map.has_iff, h5.data]
        constructor
        · rintro ⟨y, e2, hy, he2, hp2⟩
          rw [hx] at hy
          cases hy
          cases h4.unique he he2
          exact hp2
        · intro hp2
          exact ⟨x, e, hx, he, hp2⟩
      · unfold Core.isCtrl
        rw [h5.ctrl]
        dsimp only
        rw [(newInput_ports hmk).1]
    · exact absurd hk ((simple_kind he.new.simple).1 i q)
  · rcases hcells a o ho with ⟨ha, hh⟩ | ⟨rfl, rfl⟩ | ⟨e, outs', he, rfl⟩
    · rw [hold t (hin a o ins outs pm k t hh hk hf)]
      exact hc.pipes a o ins outs pm k t hh hk hf
    · rw [h5.kind] at hk
      cases hk
    · exact absurd hk ((simple_kind he.new.simple).2 _ _ _)
  · rcases hcells a o ho with ⟨_, hh⟩ | ⟨rfl, rfl⟩ | ⟨e, outs', he, rfl⟩
    · exact hw a o hh
    · exact ⟨h5.begun.data, h5.begun.ctrl⟩
    · exact ⟨he.new.core.data, he.new.core.ctrl⟩

/-- C77: nor do further connections matter: the theorems apply after them as well. -/
theorem C77_connect {s : St V} (hc : Composed s.heap) (hw : HeapWF s.heap) (a b : Nat) (p q : Str) :
    Composed (connectOp a b p q s).state.heap ∧ HeapWF (connectOp a b p q s).state.heap := by
  have hre : ∀ x, Both (fun o o' => ∃ w, o' = wired o w) (s.heap x) ((connectOp a b p q s).state.heap x) := by
    have same : ∀ x, Both (fun o o' : Op V => ∃ w, o' = wired o w) (s.heap x) (s.heap x) := by
      intro x
      cases s.heap x with
      | none => exact .none
      | some o => exact .some ⟨o.core.outputs, rfl⟩
    have hset : ∀ (src : Nat) (o : Op V) (w : Map (List Conn)), s.heap src = some o →
        ∀ x, Both (fun o o' => ∃ w, o' = wired o w) (s.heap x) ((s.setOp src (wired o w)).heap x) := by
      intro src o w ho x
      rw [setOp_heap]
      split
      · rename_i hx
        rw [hx, ho]
        exact .some ⟨w, rfl⟩
      · exact same x
    have key : ∀ (src : Nat) (t : Op V) (x : Nat), Both (fun o o' => ∃ w, o' = wired o w) (s.heap x) ((localRun src (Op.connect t.core b p q) s).state.heap x) := by
      intro src t
      unfold localRun
      cases ho : s.heap src with
      | none => exact same
      | some o =>
        dsimp only [Op.connect]
        cases hr : o.core.connect t.core b p q with
        | error e => exact hset src o o.core.outputs ho
        | ok r =>
          cases r with
          | none => exact hset src o o.core.outputs ho
          | some k =>
            obtain ⟨_, _, cs, _, _, _, _, rfl, _⟩ := connect_spec hr
            exact hset src o _ ho
    unfold connectOp
    simp only [M.bind_def, getOp]
    cases s.heap a with
    | none => exact same
    | some o =>
      dsimp only
      cases s.heap b with
      | none => exact same
      | some t =>
        dsimp only
        cases o.kind with
        | composite i q =>
          cases q with
          | none => exact same
          | some q => exact key q t
        | _ => exact key a t
  generalize (connectOp a b p q s).state.heap = h' at hre ⊢
  have hback : ∀ x o, h' x = some o → ∃ o0 w, s.heap x = some o0 ∧ o = wired o0 w := by
    intro x o ho
    have := hre x
    rw [ho] at this
    cases hx : s.heap x with
    | none => rw [hx] at this; cases this
    | some o0 =>
      rw [hx] at this
      cases this with
      | some hh => obtain ⟨w, hw⟩ := hh; exact ⟨o0, w, rfl, hw⟩
  have hforth : ∀ x o, s.heap x = some o → ∃ w, h' x = some (wired o w) := by
    intro x o ho
    have := hre x
    rw [ho] at this
    cases hx : h' x with
    | none => rw [hx] at this; cases this
    | some o0 =>
      rw [hx] at this
      cases this with
      | some hh => obtain ⟨w, hw⟩ := hh; exact ⟨w, by rw [hw]⟩
  have htaker : ∀ x, taker h' x = taker s.heap x := by
    intro x
    unfold taker
    cases hx : s.heap x with
    | none =>
      cases hx' : h' x with
      | none => rfl
      | some o =>
        obtain ⟨o0, _, h1, _⟩ := hback x o hx'
        rw [hx] at h1
        cases h1
    | some o =>
      obtain ⟨w, hh⟩ := hforth x o hx
      rw [hh]
      rfl
  refine ⟨⟨fun x o i q ho hk => ?_, fun x o ins outs pm k t ho hk hf => ?_⟩, fun x o ho => ?_⟩
  · obtain ⟨o0, w, h1, rfl⟩ := hback x o ho
    obtain ⟨j, t, g1, g2, g3, g4, g5⟩ := hc.inputs x o0 i q h1 hk
    obtain ⟨w', hh⟩ := hforth j t g2
    exact ⟨j, _, g1, hh, g3, g4, g5⟩
  · obtain ⟨o0, w, h1, rfl⟩ := hback x o ho
    rw [htaker]
    exact hc.pipes x o0 ins outs pm k t h1 hk hf
  · obtain ⟨o0, w, h1, rfl⟩ := hback x o ho
    exact ⟨(hw x o0 h1).data, (hw x o0 h1).ctrl⟩

/-- C77: to connect a Composite is to connect its Output; without an Output it throws. -/
theorem C77_output {s : St V} {a b : Nat} {o t : Op V} {i q : Option Nat} (ho : s.heap a = some o) (hk : o.kind = .composite i q) (ht : s.heap b = some t)
    (x y : Str) :
    (∀ out u, q = some out → s.heap out = some u → Simple u → connectOp a b x y s = connectOp out b x y s) ∧
      (q = none → connectOp a b x y s = .err (.exc .runtime) s) := by
  constructor
  · rintro out u rfl hu hs
    have h1 : connectOp a b x y s = localRun out (Op.connect t.core b x y) s := by
      simp only [connectOp, M.bind_def, getOp, ho, ht, hk]
    have h2 : connectOp out b x y s = localRun out (Op.connect t.core b x y) s := by
      simp only [connectOp, M.bind_def, getOp, hu, ht]
      unfold Simple at hs
      cases hku : u.kind with
      | composite i' j => rw [hku] at hs; exact hs.elim
      | _ => rfl
    rw [h1, h2]
  · rintro rfl
    simp only [connectOp, M.bind_def, getOp, ho, ht, hk]
    rfl

/-- The Composite at 0 with a Count at 4 after it. -/
def summed : St Int64 :=
  (connectOp 0 4 [] [] (⟨fun a => if a = 4 then some (Op.newCount b!"n") else summer.mem.heap a, 0, []⟩ : St Int64)).state

/-- A concrete case for C77: messages for the Composite, for an operator in it and for one outside. -/
example : fedReplies 20 [(0, i1, ⟨1, 5⟩), (0, i1, ⟨2, 7⟩), (2, i1, ⟨9, 1⟩), (0, i1, ⟨2, 7⟩), (0, b!"x", ⟨3, 0⟩)] summed =
    fedReplies 20 [(1, i1, ⟨1, 5⟩), (1, i1, ⟨2, 7⟩), (2, i1, ⟨9, 1⟩), (1, i1, ⟨2, 7⟩), (1, b!"x", ⟨3, 0⟩)] ⟨flattened summed.heap, 0, []⟩ ∧
  (fedReplies 20 [(0, i1, ⟨1, 5⟩), (0, i1, ⟨2, 7⟩)] summed).map (fun r => match r with | .ok r => Map.find? r b!"n" | .error _ => none) =
    [some [(o1, [⟨1, 1⟩])], some [(o1, [⟨2, 2⟩])]] := by
  constructor <;> decide +kernel

/-- The hypotheses of C77 hold for it. -/
theorem summed_fine : Composed summed.heap ∧ HeapWF summed.heap := by
  have h1 : ∃ p, Plan.After Plan.empty summing p ∧ p.input ≠ none := by
    obtain ⟨p, hp, hcar⟩ := C76_plan (m := (⟨fun _ => none, 0⟩ : Mem Int64)) (fun _ _ => rfl) b!"c" summing
    refine ⟨p, hp, fun hno => ?_⟩
    obtain ⟨me, h1, _, h2, _⟩ := hcar.self
    have h3 : (Comp.built (Comp.new (⟨fun _ => none, 0⟩ : Mem Int64) b!"c") summing).mem.heap
        (Comp.built (Comp.new (⟨fun _ => none, 0⟩ : Mem Int64) b!"c") summing).self = some ⟨⟨b!"c", [(i1, Inp.new i1 1)], [], [o1], [], []⟩, .composite (some 1) (some 3)⟩ := rfl
    rw [h3] at h1
    cases h1
    rw [hno] at h2
    cases h2
  obtain ⟨p, hp, hi⟩ := h1
  have h2 := C77_built (m := (⟨fun _ => none, 0⟩ : Mem Int64)) (fun _ _ => rfl) ⟨fun _ _ _ _ h => (by cases h), fun _ _ _ _ _ _ _ h => (by cases h)⟩
    (fun _ _ h => (by cases h)) (fun _ _ _ _ _ _ _ h => (by cases h)) b!"c" summing p hp hi
  have h4 : summer.mem.heap 4 = none := rfl
  refine C77_connect (s := ⟨fun a => if a = 4 then some (Op.newCount b!"n") else summer.mem.heap a, 0, []⟩) ?_ ?_ 0 4 [] []
  · refine ⟨fun a o i q ho hk => ?_, fun a o ins outs pm k t ho hk hf => ?_⟩
    · dsimp only at ho
      split at ho
      · cases ho; cases hk
      · obtain ⟨j, t, g1, g2, g3⟩ := h2.1.inputs a o i q ho hk
        refine ⟨j, t, g1, ?_, g3⟩
        change (if j = 4 then _ else summer.mem.heap j) = _
        rw [if_neg]
        · exact g2
        · rintro rfl
          have : summer.mem.heap 4 = some t := g2
          rw [h4] at this
          cases this
    · dsimp only at ho
      split at ho
      · cases ho; cases hk
      · exfalso
        have : a < 4 := by
          by_contra hge
          obtain ⟨hh1, hh2⟩ := held_new (m := (⟨fun _ => none, 0⟩ : Mem Int64)) (fun _ _ => rfl) b!"c"
          obtain ⟨_, _, _, hh, _⟩ := held_built summing hh1 hh2
          have := hh.free a (by show 4 ≤ a; omega)
          have h5 : summer.mem.heap a = none := this
          rw [h5] at ho
          cases ho
        match a, this with
        | 0, _ => cases ho; cases hk
        | 1, _ => cases ho; cases hk
        | 2, _ => cases ho; cases hk
        | 3, _ => cases ho; cases hk
  · intro a o ho
    dsimp only at ho
    split at ho
    · cases ho
      exact ⟨(Built.count b!"n").new.core.data, (Built.count b!"n").new.core.ctrl⟩
    · exact h2.2 a o ho

/-! ## C78 -/

/-- C78: the Composite itself, and so the bytes collected from it, never changes, whatever messages it and its operators are given. -/
theorem C78_blind {h : Nat → Option (Op V)} (hc : Composed h) (hw : HeapWF h) (fuel : Nat) (l : List (Nat × Str × Msg V))
    (hd : .error .diverge ∉ fedReplies fuel l ⟨h, 0, []⟩) (a : Nat) (o : Op V) (ho : h a = some o) (i q : Option Nat) (hk : o.kind = .composite i q) :
    (fedState fuel l ⟨h, 0, []⟩).heap a = some o := by
  have := (replies_sim (side := true) hc hw (Nat.le_refl fuel) l _ _ (opened_start hc 0 0 [] []) hd).2
  obtain ⟨j, t, rfl, hj, ht, _⟩ := hc.inputs a o i q ho hk
  rw [this.still a, ho]
  rw [taker_comp ho hk]
  rintro rfl
  rw [ho] at hj
  cases hj
  exact (simple_kind ht).1 _ _ hk

/-- The Composite in the state `t` restored from the bytes collected from the one in the state `s`. -/
def recovered (s t : St Int64) (a : Nat) : Option (St Int64) :=
  match s.heap a, t.heap a with
  | some o, some o' =>
    match o'.restore o.collect with
    | .ok (o'', _) => some (t.setOp a o'')
    | .error _ => none
  | _, _ => none

/-- What the CumulativeSum in the Composite of `summer` sends when the Composite is given a message. -/
def sumAfter (t : Option (St Int64)) : Option (OpMsg Int64) :=
  match t with
  | none => none
  | some t =>
    match fedReplies 20 [(0, i1, ⟨2, 7⟩)] t with
    | [.ok r] => Map.find? r b!"sum"
    | _ => none

/-- C78 is violated: a Composite with a CumulativeSum gets the values 5 and 7; restored after the first of them from the bytes collected from it, it has
forgotten the 5. -/
theorem C78_violated : sumAfter (some (fedState 20 [(0, i1, ⟨1, 5⟩)] summer.mem.st)) = some [(o1, [⟨2, 12⟩])] ∧
    sumAfter (recovered (fedState 20 [(0, i1, ⟨1, 5⟩)] summer.mem.st) summer.mem.st 0) = some [(o1, [⟨2, 7⟩])] := by
  constructor <;> decide +kernel

end Rtbot
