import Verif.Lemmas.Wiring
import Verif.Lemmas.SchemaMake
import Verif.Lemmas.Quiet
import Verif.Spec.Composite

set_option linter.unusedSectionVars false

/-! # Building a Composite -/

namespace Rtbot
variable {V : Type} [Num V]
open Spec

/-! ## Ports -/

theorem copyInputs_ok (ps : List Str) : ∀ (c : Core V), Begun c → c.ctrlIn = [] → ps.Nodup → [] ∉ ps → (∀ p ∈ ps, c.dataIn.has p = false) →
    ∃ k, copyInputs (fun k p => k.addDataInput p 1) ps c = .ok () k ∧ Begun k ∧ k.outIds = c.outIds ∧ k.ctrlIn = [] ∧ k.id = c.id ∧
      ∀ q, q ∈ k.dataIn.keys ↔ q ∈ ps ∨ q ∈ c.dataIn.keys := by
  induction ps with
  | nil => intro c hb hc _ _ _; exact ⟨c, rfl, hb, rfl, hc, rfl, by simp⟩
  | cons p ps ih =>
    intro c hb hc hn h0 hnew
    have hp : c.addDataInput p 1 = .ok { c with dataIn := c.dataIn.emplace p (Inp.new p 1) } := by
      unfold Core.addDataInput
      rw [if_neg (fun h => h0 (by simp [h])), hnew p (by simp), hc]
      rfl
    obtain ⟨hb', ho, hd, hc', hid⟩ := hb.addDataInput hp
    have hhas : ∀ q, (c.dataIn.emplace p (Inp.new p 1)).has q = (decide (q = p) || c.dataIn.has q) := by
      intro q
      unfold Map.has
      rw [Map.find?_emplace]
      by_cases h : q = p <;> simp [h]
    obtain ⟨k, hk, h1, h2, h3, h4, h5⟩ := ih _ hb' (by rw [hc', hc]) (List.nodup_cons.1 hn).2 (fun h => h0 (List.mem_cons_of_mem _ h)) (by
      intro q hq
      rw [hd, hhas, hnew q (List.mem_cons_of_mem _ hq)]
      have : q ≠ p := by rintro rfl; exact (List.nodup_cons.1 hn).1 hq
      simp [this])
    refine ⟨k, ?_, h1, by rw [h2, ho], h3, by rw [h4, hid], fun q => ?_⟩
    · simp only [copyInputs, hp]
      exact hk
    · rw [h5, hd, ← Map.has_iff, ← Map.has_iff, hhas]
      simp only [Bool.or_eq_true, decide_eq_true_eq, List.mem_cons]
      tauto

theorem mem_copyOutputs (ps : List Str) : ∀ (c : Core V) (q : Str), q ∈ (copyOutputs ps c).outIds ↔ q ∈ ps ∨ q ∈ c.outIds := by
  induction ps with
  | nil => intro c q; simp [copyOutputs]
  | cons p ps ih =>
    intro c q
    have : copyOutputs (p :: ps) c = copyOutputs ps (c.addOutput p) := rfl
    rw [this, ih]
    simp only [Core.addOutput, mem_setInsert, List.mem_cons]
    tauto

theorem copyOutputs_rest (ps : List Str) : ∀ (c : Core V), (copyOutputs ps c).dataIn = c.dataIn ∧ (copyOutputs ps c).ctrlIn = c.ctrlIn ∧
    (copyOutputs ps c).id = c.id ∧ (Begun c → Begun (copyOutputs ps c)) := by
  induction ps with
  | nil => intro c; exact ⟨rfl, rfl, rfl, id⟩
  | cons p ps ih =>
    intro c
    have : copyOutputs (p :: ps) c = copyOutputs ps (c.addOutput p) := rfl
    rw [this]
    obtain ⟨h1, h2, h3, h4⟩ := ih (c.addOutput p)
    exact ⟨h1, h2, h3, fun h => h4 (h.addOutput p)⟩

theorem newInput_ports {id : Str} {n : Nat} {o : Op V} (h : Op.newInput id n = .ok o) : o.core.ctrlIn = [] ∧ o.core.dataIn.keys.Nodup ∧ [] ∉ o.core.dataIn.keys := by
  obtain ⟨⟨c, pm⟩, h1, h2⟩ := bind_eq_ok.1 h
  cases h2
  obtain ⟨hb, hc, _⟩ := addPorts_begun (begun_new id) 1 n h1
  refine ⟨hc, ?_, ?_⟩
  · exact List.Pairwise.imp (fun {a b} h => by rintro rfl; rw [strLt_irrefl] at h; cases h) hb.data
  · have := (addPorts_named (begun_new id) 1 n h1).1 rfl
    intro hm
    rw [← Map.has_iff] at hm
    rw [hm] at this
    cases this

theorem make_built {k : Creator V} {id : Str} {o : Op V} (h : k.make id = .ok o) : Built o ∧ o.core.id = id := by
  cases k with
  | join n =>
    obtain ⟨n', _, h⟩ := bind_eq_ok.1 h
    exact ⟨.join h, newJoin_id h⟩
  | demultiplexer n =>
    obtain ⟨n', _, h⟩ := bind_eq_ok.1 h
    exact ⟨.demux h, newDemux_id h⟩
  | linear c => exact ⟨.linear h, newLinear_id h⟩
  | add v => cases h; exact ⟨.add _ _, rfl⟩
  | autoRegressive c => cases h; exact ⟨.autoReg _ _, rfl⟩
  | constant v => cases h; exact ⟨.constant _ _, rfl⟩
  | cosineResampler d => cases h; exact ⟨.cosRes _ _, rfl⟩
  | count => cases h; exact ⟨.count _, rfl⟩
  | cumulativeSum => cases h; exact ⟨.cumSum _, rfl⟩
  | difference b => cases h; exact ⟨.difference _ _, rfl⟩
  | division => cases h; exact ⟨.binary _ _, rfl⟩
  | minus => cases h; exact ⟨.binary _ _, rfl⟩
  | equalTo v => cases h; exact ⟨.filter _ _ _, rfl⟩
  | greaterThan v => cases h; exact ⟨.filter _ _ _, rfl⟩
  | lessThan v => cases h; exact ⟨.filter _ _ _, rfl⟩
  | hermiteResampler d => cases h; exact ⟨.hermRes _ _, rfl⟩
  | identity => cases h; exact ⟨.identity _, rfl⟩
  | movingAverage n => cases h; exact ⟨.movAvg _ _, rfl⟩
  | finiteImpulseResponse c => cases h; exact ⟨.fir _ _, rfl⟩
  | «variable» v => cases h; exact ⟨.variable _ _, rfl⟩
  | peakDetector n => cases h; exact ⟨.peak _ _, rfl⟩
  | standardDeviation n => cases h; exact ⟨.stdDev _ _, rfl⟩
  | power v => cases h; exact ⟨.power _ _, rfl⟩
  | scale v => cases h; exact ⟨.scale _ _, rfl⟩
  | timeShift d t => cases h; exact ⟨.timeShift _ _ _, rfl⟩

/-! ## The invariant -/

/-- Everything but the object itself. -/
structure Held (m : Mem V) (c : Comp V) (p : Plan V) : Prop where
  base : c.self = m.next
  room : m.next < c.mem.next
  free : ∀ a, c.mem.next ≤ a → c.mem.heap a = none
  place : ∀ id a, c.ops.find? id = some a → m.next < a ∧ a < c.mem.next
  apart : ∀ id id' a, c.ops.find? id = some a → c.ops.find? id' = some a → id = id'
  once : (p.ops.map Prod.fst).Nodup
  ops : ∀ id a, c.ops.find? id = some a → ∃ o outs, (id, o) ∈ p.ops ∧ c.mem.heap a = some { o with core := { o.core with outputs := outs } } ∧
    ∀ q, connsOf c.mem.heap a q = p.conns c.ops id q
  all : ∀ id, p.Used id → ∃ a, c.ops.find? id = some a
  links : ∀ l ∈ p.links, p.Used l.src ∧ p.Used l.dst
  built : ∀ e ∈ p.ops, Built e.2 ∧ e.2.core.id = e.1
  others : ∀ a, a < m.next → c.mem.heap a = m.heap a
  only : ∀ a, m.next < a → a < c.mem.next → ∃ id, c.ops.find? id = some a

/-- The object itself. -/
structure Selfed (id0 : Str) (c : Comp V) (p : Plan V) (me : Op V) : Prop where
  cell : c.mem.heap c.self = some me
  id : me.core.id = id0
  kind : me.kind = .composite (p.input.bind fun i => c.ops.find? i) (p.output.bind fun i => c.ops.find? i)
  data : ∀ q, q ∈ me.core.dataIn.keys ↔ ∃ i o, p.input = some i ∧ (i, o) ∈ p.ops ∧ q ∈ o.core.dataIn.keys
  ctrl : me.core.ctrlIn = []
  outs : ∀ q, q ∈ me.core.outIds ↔ ∃ i o, p.output = some i ∧ (i, o) ∈ p.ops ∧ q ∈ o.core.outIds
  begun : Begun me.core
  inUsed : ∀ i, p.input = some i → ∃ o n, (i, o) ∈ p.ops ∧ Op.newInput i n = .ok o
  outUsed : ∀ i, p.output = some i → ∃ o n, (i, o) ∈ p.ops ∧ Op.newOutput i n = .ok o

variable {m : Mem V} {c c' : Comp V} {p p' : Plan V} {id id0 : Str} {o me : Op V}

theorem Held.used_iff (h : Held m c p) (id : Str) : c.ops.has id = true ↔ p.Used id := by
  constructor
  · intro hh
    unfold Map.has at hh
    cases hf : c.ops.find? id with
    | none => rw [hf] at hh; cases hh
    | some a =>
      obtain ⟨o, _, h1, _⟩ := h.ops id a hf
      exact ⟨o, h1⟩
  · intro hu
    obtain ⟨a, ha⟩ := h.all id hu
    simp [Map.has, ha]

theorem Held.unused (h : Held m c p) (hn : ¬ p.Used id) : c.ops.find? id = none := by
  have := mt (h.used_iff id).1 hn
  unfold Map.has at this
  cases hf : c.ops.find? id with
  | none => rfl
  | some a => rw [hf] at this; exact absurd rfl this

theorem Held.unique (h : Held m c p) {o o' : Op V} (h1 : (id, o) ∈ p.ops) (h2 : (id, o') ∈ p.ops) : o = o' := by
  have := h.once
  have hi := List.inj_on_of_nodup_map this h1 h2 rfl
  exact congrArg Prod.snd hi

theorem conns_grow (h : Held m c p) (hn : ¬ p.Used id) {a : Nat} (x q : Str) (hl : p'.links = p.links) :
    p'.conns (c.ops.emplace id a) x q = p.conns c.ops x q := by
  unfold Plan.conns
  rw [hl]
  refine List.filterMap_congr fun l hl' => ?_
  split
  · rw [Map.find?_emplace]
    have : l.dst ≠ id := by rintro rfl; exact hn (h.links l hl').2
    rw [if_neg this]
  · rfl

/-- A new operator. -/
theorem Held.grow (h : Held m c p) (hn : ¬ p.Used id) (hb : Built o) (hid : o.core.id = id) (h1 : c'.self = c.self)
    (h2 : c'.ops = c.ops.emplace id c.mem.next)
    (h3 : c'.mem.next = c.mem.next + 1) (h4 : c'.mem.heap c.mem.next = some o) (h5 : ∀ b, b ≠ c.mem.next → b ≠ c.self → c'.mem.heap b = c.mem.heap b)
    (h6 : p'.ops = p.ops ++ [(id, o)]) (h7 : p'.links = p.links) : Held m c' p' := by
  have hfind : ∀ x, c'.ops.find? x = if x = id then some c.mem.next else c.ops.find? x := by
    intro x
    rw [h2, Map.find?_emplace, h.unused hn]
    rfl
  have hused : ∀ x, p'.Used x ↔ p.Used x ∨ x = id := by
    intro x
    unfold Plan.Used
    rw [h6]
    constructor
    · rintro ⟨o', ho'⟩
      rcases List.mem_append.1 ho' with h | h
      · exact Or.inl ⟨o', h⟩
      · simp only [List.mem_singleton, Prod.mk.injEq] at h
        exact Or.inr h.1
    · rintro (⟨o', h⟩ | rfl)
      · exact ⟨o', List.mem_append_left _ h⟩
      · exact ⟨o, by simp⟩
  have hconns : ∀ a, a ≠ c.mem.next → a ≠ c.self → ∀ q, connsOf c'.mem.heap a q = connsOf c.mem.heap a q := by
    intro a ha ha' q
    unfold connsOf
    rw [h5 a ha ha']
  refine ⟨by rw [h1, h.base], by have := h.room; omega, ?_, ?_, ?_, ?_, ?_, ?_, ?_, ?_, ?_, ?_⟩
  · intro a ha
    have := h.room
    have := h.base
    rw [h5 a (by omega) (by omega)]
    exact h.free a (by omega)
  · intro x a hx
    rw [hfind] at hx
    split at hx
    · cases hx
      have := h.room
      omega
    · have := h.place x a hx
      omega
  · intro x y a hx hy
    rw [hfind] at hx hy
    split at hx <;> split at hy
    · rename_i e1 e2; rw [e1, e2]
    · cases hx
      have := h.place y _ hy
      omega
    · cases hy
      have := h.place x _ hx
      omega
    · exact h.apart x y a hx hy
  · rw [h6, List.map_append]
    refine List.nodup_append.2 ⟨h.once, by simp, ?_⟩
    intro a ha b hb'
    simp only [List.map_cons, List.map_nil, List.mem_singleton] at hb'
    rintro rfl
    obtain ⟨e, he, hea⟩ := List.mem_map.1 ha
    exact hn ⟨e.2, by rw [← hb', ← hea]; exact he⟩
  · intro x a hx
    rw [hfind] at hx
    split at hx
    · rename_i hxi
      cases hx
      subst hxi
      refine ⟨o, o.core.outputs, by rw [h6]; simp, h4, fun q => ?_⟩
      have hal := hb.new.core.alone
      rw [h2, conns_grow h hn x q h7]
      have hno : p.conns c.ops x q = [] := by
        unfold Plan.conns
        refine List.filterMap_eq_nil_iff.2 fun l hl => ?_
        rw [if_neg]
        rintro ⟨rfl, _⟩
        exact hn (h.links l hl).1
      rw [hno]
      unfold connsOf
      rw [h4]
      dsimp only
      rw [hal]
      rfl
    · obtain ⟨o', outs, g1, g2, g3⟩ := h.ops x a hx
      have hpl := h.place x a hx
      have hb := h.base
      refine ⟨o', outs, by rw [h6]; exact List.mem_append_left _ g1, by rw [h5 a (by omega) (by omega)]; exact g2, fun q => ?_⟩
      rw [hconns a (by omega) (by omega), g3, h2, conns_grow h hn x q h7]
  · intro x hx
    rw [hfind]
    rcases (hused x).1 hx with hx | rfl
    · split
      · exact ⟨_, rfl⟩
      · exact h.all x hx
    · exact ⟨_, if_pos rfl⟩
  · intro l hl
    rw [h7] at hl
    exact ⟨(hused _).2 (Or.inl (h.links l hl).1), (hused _).2 (Or.inl (h.links l hl).2)⟩
  · intro e he
    rw [h6] at he
    rcases List.mem_append.1 he with he | he
    · exact h.built e he
    · simp only [List.mem_singleton] at he
      subst he
      exact ⟨hb, hid⟩
  · intro a ha
    have := h.room
    have := h.base
    rw [h5 a (by omega) (by omega)]
    exact h.others a ha
  · intro a ha ha'
    by_cases hn' : a = c.mem.next
    · exact ⟨id, by rw [hfind, if_pos rfl, hn']⟩
    · obtain ⟨x, hx⟩ := h.only a ha (by omega)
      refine ⟨x, ?_⟩
      rw [hfind, if_neg]
      · exact hx
      · rintro rfl
        rw [h.unused hn] at hx
        cases hx

theorem found_grow (h : Held m c p) (hn : ¬ p.Used id) {a : Nat} {i : Option Str} (hi : ∀ x, i = some x → p.Used x) :
    (i.bind fun i => (c.ops.emplace id a).find? i) = i.bind fun i => c.ops.find? i := by
  cases i with
  | none => rfl
  | some x =>
    simp only [Option.bind_some]
    rw [Map.find?_emplace, if_neg]
    rintro rfl
    exact hn (hi _ rfl)

theorem mem_grow (hn : ¬ p.Used id) {i : Option Str} (hi : ∀ x, i = some x → p.Used x) (F : Op V → Prop) :
    (∃ x o', i = some x ∧ (x, o') ∈ p.ops ++ [(id, o)] ∧ F o') ↔ ∃ x o', i = some x ∧ (x, o') ∈ p.ops ∧ F o' := by
  constructor
  · rintro ⟨x, o', rfl, hm, hF⟩
    rcases List.mem_append.1 hm with hm | hm
    · exact ⟨x, o', rfl, hm, hF⟩
    · simp only [List.mem_singleton, Prod.mk.injEq] at hm
      rw [hm.1] at hi
      exact absurd (hi id rfl) hn
  · rintro ⟨x, o', rfl, hm, hF⟩
    exact ⟨x, o', rfl, List.mem_append_left _ hm, hF⟩

theorem Selfed.input_used (h : Selfed id0 c p me) : ∀ x, p.input = some x → p.Used x := fun x hx => by
  obtain ⟨o, _, h, _⟩ := h.inUsed x hx
  exact ⟨o, h⟩

theorem Selfed.output_used (h : Selfed id0 c p me) : ∀ x, p.output = some x → p.Used x := fun x hx => by
  obtain ⟨o, _, h, _⟩ := h.outUsed x hx
  exact ⟨o, h⟩

/-- Does the call return, and is the result as planned? -/
def Does (m : Mem V) (id0 : Str) (c : Comp V) (p : Plan V) (x : CompCall V) : Prop :=
  (∃ p' c' me', p.Takes x p' ∧ x.on c = .ok () c' ∧ Held m c' p' ∧ Selfed id0 c' p' me') ∨ ((∀ p', ¬ p.Takes x p') ∧ ∃ e, x.on c = .err e c)

theorem does_create (h : Held m c p) (hs : Selfed id0 c p me) (id : Str) (k : Creator V) : Does m id0 c p (.create id k) := by
  unfold Does
  dsimp only [CompCall.on, Comp.create]
  by_cases hu : p.Used id
  · refine Or.inr ⟨fun p' ht => by cases ht; rename_i hn _; exact hn hu, ?_⟩
    rw [if_pos ((h.used_iff id).2 hu)]
    exact ⟨_, rfl⟩
  · rw [if_neg (fun hh => hu ((h.used_iff id).1 hh))]
    cases hk : k.make id with
    | error e =>
      refine Or.inr ⟨fun p' ht => ?_, _, rfl⟩
      cases ht
      rename_i hm
      rw [hk] at hm
      cases hm
    | ok o =>
      have hb := make_built hk
      have hroom := h.room
      have hbase := h.base
      refine Or.inl ⟨_, _, me, .create hu hk, rfl, ?_, ?_⟩
      · exact h.grow hu hb.1 hb.2 rfl rfl rfl (if_pos rfl) (fun b hb _ => if_neg hb) rfl rfl
      · refine ⟨?_, hs.id, ?_, ?_, hs.ctrl, ?_, hs.begun, ?_, ?_⟩
        · dsimp only [Mem.alloc]
          rw [if_neg (by omega)]
          exact hs.cell
        · dsimp only
          rw [found_grow h hu hs.input_used, found_grow h hu hs.output_used]
          exact hs.kind
        · intro q
          dsimp only
          rw [mem_grow hu hs.input_used (fun o => q ∈ o.core.dataIn.keys)]
          exact hs.data q
        · intro q
          dsimp only
          rw [mem_grow hu hs.output_used (fun o => q ∈ o.core.outIds)]
          exact hs.outs q
        · intro i hi
          obtain ⟨o, n, h1, h2⟩ := hs.inUsed i hi
          exact ⟨o, n, List.mem_append_left _ h1, h2⟩
        · intro i hi
          obtain ⟨o, n, h1, h2⟩ := hs.outUsed i hi
          exact ⟨o, n, List.mem_append_left _ h1, h2⟩

theorem portCount_cases (n : Nat) : (n < 2 ^ 31 ∧ portCount n = .ok n) ∨ (¬ n < 2 ^ 31 ∧ ∃ e, portCount n = .error e) := by
  unfold portCount
  by_cases h : n < 2 ^ 31
  · rw [if_pos h]; exact Or.inl ⟨h, rfl⟩
  · rw [if_neg h]; exact Or.inr ⟨h, _, rfl⟩

theorem does_input (h : Held m c p) (hs : Selfed id0 c p me) (id : Str) (n : Nat) : Does m id0 c p (.input id n) := by
  unfold Does
  dsimp only [CompCall.on]
  unfold Comp.createInput
  rw [hs.cell]
  dsimp only
  rw [hs.kind]
  dsimp only
  by_cases hu : p.Used id
  · refine Or.inr ⟨fun p' ht => (by cases ht with | input new _ _ _ => exact new hu), ?_⟩
    rw [if_pos ((h.used_iff id).2 hu)]
    exact ⟨_, rfl⟩
  · rw [if_neg (fun hh => hu ((h.used_iff id).1 hh))]
    cases hi : p.input with
    | some i =>
      refine Or.inr ⟨fun p' ht => (by cases ht with | input _ hno _ _ => rw [hi] at hno; cases hno), ?_⟩
      obtain ⟨a, ha⟩ := h.all i (hs.input_used i hi)
      simp only [Option.bind_some, ha]
      exact ⟨_, rfl⟩
    | none =>
      simp only [Option.bind_none]
      rcases portCount_cases n with ⟨hn, hpc⟩ | ⟨hn, e, hpc⟩
      · have hmk : (do Op.newInput id (← portCount n) : Except Err (Op V)) = Op.newInput id n := by rw [hpc]; rfl
        rw [hmk]
        cases hk : (Op.newInput id n : Except Err (Op V)) with
        | error e =>
          refine Or.inr ⟨fun p' ht => ?_, _, rfl⟩
          cases ht
          rename_i hm
          rw [hk] at hm
          cases hm
        | ok o =>
          have hbt : Built o := .input hk
          have hroom := h.room
          have hbase := h.base
          obtain ⟨hc0, hnd, hne⟩ := newInput_ports hk
          have hempty : me.core.dataIn.keys = [] := by
            refine List.eq_nil_iff_forall_not_mem.2 fun q hq => ?_
            obtain ⟨i, _, hx, _⟩ := (hs.data q).1 hq
            rw [hi] at hx
            cases hx
          obtain ⟨k, hk1, hk2, hk3, hk4, hk5, hk6⟩ := copyInputs_ok o.core.dataIn.keys me.core hs.begun hs.ctrl hnd hne (by
            intro q hq
            cases hh : me.core.dataIn.has q with
            | false => rfl
            | true => rw [Map.has_iff, hempty] at hh; cases hh)
          dsimp only
          rw [hk1, hc0]
          dsimp only [copyInputs, Map.keys, List.map_nil]
          refine Or.inl ⟨{ p with ops := p.ops ++ [(id, o)], input := some id }, _, ⟨k, .composite (some c.mem.next) (p.output.bind fun i => c.ops.find? i)⟩,
            .input hu hi hn hk, rfl, ?_, ?_⟩
          · refine h.grow hu hbt (newInput_id hk) rfl rfl rfl ?_ ?_ rfl rfl
            · dsimp only [Comp.setSelf, Mem.alloc]
              rw [if_neg (by omega), if_pos rfl]
            · intro b hb1 hb2
              dsimp only [Comp.setSelf, Mem.alloc]
              rw [if_neg hb2, if_neg hb1]
          · refine ⟨if_pos rfl, by rw [← hs.id]; exact hk5, ?_, ?_, hk4, ?_, hk2, ?_, ?_⟩
            · dsimp only [Comp.setSelf]
              rw [found_grow h hu hs.output_used]
              simp only [Option.bind_some, Map.find?_emplace, if_pos, h.unused hu]
              rfl
            · intro q
              dsimp only
              rw [hk6, hempty]
              constructor
              · rintro (hq | hq)
                · exact ⟨id, o, rfl, by simp, hq⟩
                · cases hq
              · rintro ⟨x, o', hx, hm, hq⟩
                cases hx
                rcases List.mem_append.1 hm with hm | hm
                · exact absurd ⟨o', hm⟩ hu
                · simp only [List.mem_singleton, Prod.mk.injEq] at hm
                  rw [hm.2] at hq
                  exact Or.inl hq
            · intro q
              dsimp only
              rw [mem_grow hu hs.output_used (fun o => q ∈ o.core.outIds), hk3]
              exact hs.outs q
            · intro i hi'
              cases hi'
              exact ⟨o, n, by simp, hk⟩
            · intro i hi'
              obtain ⟨o, n, h1, h2⟩ := hs.outUsed i hi'
              exact ⟨o, n, List.mem_append_left _ h1, h2⟩
      · have hmk : (do Op.newInput id (← portCount n) : Except Err (Op V)) = .error e := by rw [hpc]; rfl
        rw [hmk]
        exact Or.inr ⟨fun p' ht => by cases ht; rename_i hsz _; exact hn hsz, _, rfl⟩

theorem does_output (h : Held m c p) (hs : Selfed id0 c p me) (id : Str) (n : Nat) : Does m id0 c p (.output id n) := by
  unfold Does
  dsimp only [CompCall.on]
  unfold Comp.createOutput
  rw [hs.cell]
  dsimp only
  rw [hs.kind]
  dsimp only
  by_cases hu : p.Used id
  · refine Or.inr ⟨fun p' ht => (by cases ht with | output new _ _ _ => exact new hu), ?_⟩
    rw [if_pos ((h.used_iff id).2 hu)]
    exact ⟨_, rfl⟩
  · rw [if_neg (fun hh => hu ((h.used_iff id).1 hh))]
    cases hi : p.output with
    | some i =>
      refine Or.inr ⟨fun p' ht => (by cases ht with | output _ hno _ _ => rw [hi] at hno; cases hno), ?_⟩
      obtain ⟨a, ha⟩ := h.all i (hs.output_used i hi)
      simp only [Option.bind_some, ha]
      exact ⟨_, rfl⟩
    | none =>
      simp only [Option.bind_none]
      rcases portCount_cases n with ⟨hn, hpc⟩ | ⟨hn, e, hpc⟩
      · have hmk : (do Op.newOutput id (← portCount n) : Except Err (Op V)) = Op.newOutput id n := by rw [hpc]; rfl
        rw [hmk]
        cases hk : (Op.newOutput id n : Except Err (Op V)) with
        | error e =>
          refine Or.inr ⟨fun p' ht => ?_, _, rfl⟩
          cases ht
          rename_i hm
          rw [hk] at hm
          cases hm
        | ok o =>
          have hbt : Built o := .output hk
          have hroom := h.room
          have hbase := h.base
          have hempty : ∀ q, q ∉ me.core.outIds := by
            intro q hq
            obtain ⟨i, _, hx, _⟩ := (hs.outs q).1 hq
            rw [hi] at hx
            cases hx
          obtain ⟨r1, r2, r3, r4⟩ := copyOutputs_rest o.core.outIds me.core
          refine Or.inl ⟨{ p with ops := p.ops ++ [(id, o)], output := some id }, _,
            ⟨copyOutputs o.core.outIds me.core, .composite (p.input.bind fun i => c.ops.find? i) (some c.mem.next)⟩, .output hu hi hn hk, rfl, ?_, ?_⟩
          · refine h.grow hu hbt (newOutput_id hk) rfl rfl rfl ?_ ?_ rfl rfl
            · dsimp only [Comp.setSelf, Mem.alloc]
              rw [if_neg (by omega), if_pos rfl]
            · intro b hb1 hb2
              dsimp only [Comp.setSelf, Mem.alloc]
              rw [if_neg hb2, if_neg hb1]
          · refine ⟨if_pos rfl, by rw [← hs.id]; exact r3, ?_, ?_, by rw [← hs.ctrl]; exact r2, ?_, r4 hs.begun, ?_, ?_⟩
            · dsimp only [Comp.setSelf]
              rw [found_grow h hu hs.input_used]
              simp only [Option.bind_some, Map.find?_emplace, if_pos, h.unused hu]
              rfl
            · intro q
              dsimp only
              rw [mem_grow hu hs.input_used (fun o => q ∈ o.core.dataIn.keys), r1]
              exact hs.data q
            · intro q
              dsimp only
              rw [mem_copyOutputs]
              constructor
              · rintro (hq | hq)
                · exact ⟨id, o, rfl, by simp, hq⟩
                · exact absurd hq (hempty q)
              · rintro ⟨x, o', hx, hm, hq⟩
                cases hx
                rcases List.mem_append.1 hm with hm | hm
                · exact absurd ⟨o', hm⟩ hu
                · simp only [List.mem_singleton, Prod.mk.injEq] at hm
                  rw [hm.2] at hq
                  exact Or.inl hq
            · intro i hi'
              obtain ⟨o, n, h1, h2⟩ := hs.inUsed i hi'
              exact ⟨o, n, List.mem_append_left _ h1, h2⟩
            · intro i hi'
              cases hi'
              exact ⟨o, n, by simp, hk⟩
      · have hmk : (do Op.newOutput id (← portCount n) : Except Err (Op V)) = .error e := by rw [hpc]; rfl
        rw [hmk]
        exact Or.inr ⟨fun p' ht => by cases ht; rename_i hsz _; exact hn hsz, _, rfl⟩

/-! ## Connections -/

theorem setOp_same {h : Nat → Option (Op V)} {a : Nat} {o : Op V} (ho : h a = some o) : (fun b => if b = a then some o else h b) = h := by
  funext b
  split
  · rename_i hb; rw [hb, ho]
  · rfl

/-- What `connect` does to an operator of the Composite. -/
theorem connectOp_run {s : St V} {a b : Nat} {o t : Op V} (ho : s.heap a = some o) (ht : s.heap b = some t) (hk : Simple o) (p q : Str) :
    connectOp a b p q s = match o.core.connect t.core b p q with
      | .error e => .err e (s.setOp a o)
      | .ok none => .ok false (s.setOp a o)
      | .ok (some k) => .ok true (s.setOp a { o with core := k }) := by
  simp only [connectOp, M.bind_def, getOp, ho, ht]
  have : ∀ x : Res (St V) Bool, localRun a (Op.connect t.core b p q) s = x →
      (match o.kind with
        | .composite _ (some q') => localRun q' (Op.connect t.core b p q)
        | .composite _ none => M.throw (.exc .runtime)
        | _ => localRun a (Op.connect t.core b p q)) s = x := by
    intro x hx
    unfold Simple at hk
    cases hkind : o.kind with
    | composite i j => rw [hkind] at hk; exact hk.elim
    | _ => exact hx
  refine this _ ?_
  simp only [localRun, ho, Op.connect]
  cases o.core.connect t.core b p q with
  | error e => rfl
  | ok r => cases r <;> rfl

theorem does_connect (h : Held m c p) (hs : Selfed id0 c p me) (a b out inp : Str) : Does m id0 c p (.connect a b out inp) := by
  unfold Does
  dsimp only [CompCall.on]
  unfold Comp.createInternalConnection
  cases ha : c.ops.find? a with
  | none =>
    refine Or.inr ⟨fun p' ht => ?_, _, rfl⟩
    cases ht with
    | connect src dst _ _ =>
      obtain ⟨x, hx⟩ := h.all a ⟨_, src⟩
      rw [ha] at hx
      cases hx
  | some x =>
    dsimp only
    cases hb : c.ops.find? b with
    | none =>
      refine Or.inr ⟨fun p' ht => ?_, _, rfl⟩
      cases ht with
      | connect src dst _ _ =>
        obtain ⟨x, hx⟩ := h.all b ⟨_, dst⟩
        rw [hb] at hx
        cases hx
    | some y =>
      dsimp only
      obtain ⟨o, outs, ho, hx, hcon⟩ := h.ops a x ha
      obtain ⟨t, outs', ht, hy, _⟩ := h.ops b y hb
      have hso : Simple ({ o with core := { o.core with outputs := outs } } : Op V) := (h.built _ ho).1.new.simple
      rw [connectOp_run (s := c.mem.st) hx hy hso]
      have hrefuse : (∀ k, ({ o.core with outputs := outs } : Core V).connect { t.core with outputs := outs' } y out inp ≠ .ok (some k)) →
          ∀ p', ¬ p.Takes (.connect a b out inp) p' := by
        intro hno p' htk
        cases htk with
        | connect src dst source target =>
          cases h.unique src ho
          cases h.unique dst ht
          obtain ⟨k, hk⟩ := connect_of_means (c := { o.core with outputs := outs }) (child := { t.core with outputs := outs' }) (b := y) source target
          exact hno k hk
      have hsame : ({ c with mem := { c.mem with heap := (c.mem.st.setOp x { o with core := { o.core with outputs := outs } }).heap } } : Comp V) = c := by
        have : (c.mem.st.setOp x { o with core := { o.core with outputs := outs } }).heap = c.mem.heap := setOp_same hx
        rw [this]
      cases hr : ({ o.core with outputs := outs } : Core V).connect { t.core with outputs := outs' } y out inp with
      | error e =>
        refine Or.inr ⟨hrefuse fun k hk => (by rw [hr] at hk; cases hk), e, ?_⟩
        dsimp only
        rw [hsame]
      | ok r =>
        cases r with
        | none =>
          refine Or.inr ⟨hrefuse fun k hk => (by rw [hr] at hk; cases hk), .exc .runtime, ?_⟩
          dsimp only
          rw [hsame]
        | some k =>
          obtain ⟨u, v, cs, hu, hv, rfl, hcs⟩ := connect_means hr
          have hbase := h.base
          have hroom := h.room
          have hpx := h.place a x ha
          refine Or.inl ⟨{ p with links := p.links ++ [⟨a, u, b, v⟩] }, _, me, .connect ho ht hu hv, rfl, ?_, ?_⟩
          · refine ⟨h.base, h.room, ?_, h.place, h.apart, h.once, ?_, h.all, ?_, h.built, ?_, h.only⟩
            · intro z hz
              change (if z = x then _ else c.mem.heap z) = none
              rw [if_neg (by dsimp only at hz; omega)]
              exact h.free z hz
            · intro id z hz
              obtain ⟨o', outs'', h1, h2, h3⟩ := h.ops id z hz
              by_cases hzx : z = x
              · subst hzx
                have hid := h.apart id a z hz ha
                subst hid
                refine ⟨o, outs.put u (cs ++ [⟨y, v⟩]), ho, (by show (if z = z then some _ else c.mem.heap z) = _; rw [if_pos rfl]), fun q => ?_⟩
                have hold : connsOf c.mem.heap z q = match Map.find? outs q with | none => [] | some cs => cs := by
                  unfold connsOf
                  rw [hx]
                  rfl
                have hnew : connsOf (c.mem.st.setOp z { o with core := { o.core with outputs := outs.put u (cs ++ [⟨y, v⟩]) } }).heap z q =
                    match Map.find? (outs.put u (cs ++ [⟨y, v⟩])) q with | none => [] | some cs => cs := by
                  unfold connsOf
                  rw [setOp_heap, if_pos rfl]
                  rfl
                change connsOf (c.mem.st.setOp z { o with core := { o.core with outputs := outs.put u (cs ++ [⟨y, v⟩]) } }).heap z q = _
                rw [hnew, Map.find?_put]
                have hpl : Plan.conns { p with links := p.links ++ [⟨id, u, b, v⟩] } c.ops id q = p.conns c.ops id q ++ (if u = q then [⟨y, v⟩] else []) := by
                  unfold Plan.conns
                  rw [List.filterMap_append]
                  congr 1
                  by_cases huq : u = q <;> simp [huq, hb]
                rw [hpl, ← hcon q, hold]
                by_cases hq : q = u
                · subst hq
                  rw [if_pos rfl, if_pos rfl]
                  dsimp only at hcs ⊢
                  rcases hcs with ⟨rfl, hn⟩ | hsm
                  · rw [hn]
                  · rw [hsm]
                · rw [if_neg hq, if_neg (fun hh => hq hh.symm), List.append_nil]
              · refine ⟨o', outs'', h1, (if_neg hzx).trans h2, fun q => ?_⟩
                have hcn : connsOf (c.mem.st.setOp x { o with core := { o.core with outputs := outs.put u (cs ++ [⟨y, v⟩]) } }).heap z q = connsOf c.mem.heap z q := by
                  unfold connsOf
                  rw [setOp_heap, if_neg hzx]
                  rfl
                change connsOf (c.mem.st.setOp x { o with core := { o.core with outputs := outs.put u (cs ++ [⟨y, v⟩]) } }).heap z q = _
                rw [hcn, h3]
                unfold Plan.conns
                rw [List.filterMap_append]
                have hne : a ≠ id := by
                  rintro rfl
                  rw [ha] at hz
                  cases hz
                  exact hzx rfl
                simp [hne]
            · intro l hl
              rcases List.mem_append.1 hl with hl | hl
              · exact h.links l hl
              · simp only [List.mem_singleton] at hl
                subst hl
                exact ⟨⟨o, ho⟩, ⟨t, ht⟩⟩
            · intro z hz
              change (if z = x then _ else c.mem.heap z) = _
              rw [if_neg (by omega)]
              exact h.others z hz
          · refine ⟨?_, hs.id, hs.kind, hs.data, hs.ctrl, hs.outs, hs.begun, hs.inUsed, hs.outUsed⟩
            change (if c.self = x then _ else c.mem.heap c.self) = _
            rw [if_neg (by omega)]
            exact hs.cell

theorem does_any (h : Held m c p) (hs : Selfed id0 c p me) (x : CompCall V) : Does m id0 c p x := by
  cases x with
  | input id n => exact does_input h hs id n
  | output id n => exact does_output h hs id n
  | create id k => exact does_create h hs id k
  | connect a b u v => exact does_connect h hs a b u v

/-! ## From the beginning -/

theorem held_new (hfree : ∀ a, m.next ≤ a → m.heap a = none) (id0 : Str) : Held m (Comp.new m id0) Plan.empty ∧
    Selfed id0 (Comp.new m id0) Plan.empty ⟨Core.new id0, .composite none none⟩ := by
  constructor
  · refine ⟨rfl, Nat.lt_succ_self _, ?_, ?_, ?_, .nil, ?_, ?_, ?_, ?_, ?_, ?_⟩
    · intro a ha
      dsimp only [Comp.new, Mem.alloc] at ha ⊢
      rw [if_neg (by omega)]
      exact hfree a (by omega)
    · intro _ _ h; cases h
    · intro _ _ _ h; cases h
    · intro _ _ h; cases h
    · rintro _ ⟨_, h⟩; cases h
    · intro _ h; cases h
    · intro _ h; cases h
    · intro a ha
      dsimp only [Comp.new, Mem.alloc]
      rw [if_neg (by omega)]
    · intro a ha ha'
      dsimp only [Comp.new, Mem.alloc] at ha'
      omega
  · refine ⟨if_pos rfl, rfl, rfl, ?_, rfl, ?_, begun_new id0, ?_, ?_⟩
    · intro q
      constructor
      · intro h; cases h
      · rintro ⟨_, _, h, _⟩; cases h
    · intro q
      constructor
      · intro h; cases h
      · rintro ⟨_, _, h, _⟩; cases h
    · intro _ h; cases h
    · intro _ h; cases h

theorem held_built (xs : List (CompCall V)) : ∀ {c : Comp V} {p : Plan V} {me : Op V}, Held m c p → Selfed id0 c p me →
    ∃ p' me', p.After xs p' ∧ Held m (Comp.built c xs) p' ∧ Selfed id0 (Comp.built c xs) p' me' := by
  induction xs with
  | nil => intro c p me h hs; exact ⟨p, me, .done p, h, hs⟩
  | cons x xs ih =>
    intro c p me h hs
    rcases does_any h hs x with ⟨p1, c1, me1, h1, h2, h3, h4⟩ | ⟨h1, e, h2⟩
    · obtain ⟨p', me', g1, g2, g3⟩ := ih h3 h4
      refine ⟨p', me', .taken h1 g1, ?_⟩
      unfold Comp.built
      rw [h2]
      exact ⟨g2, g3⟩
    · obtain ⟨p', me', g1, g2, g3⟩ := ih h hs
      refine ⟨p', me', .refused h1 g1, ?_⟩
      unfold Comp.built
      rw [h2]
      exact ⟨g2, g3⟩

theorem Held.carries (h : Held m c p) (hs : Selfed id0 c p me) : Carries m id0 c p :=
  ⟨fun id a ha => (h.place id a ha).1, h.apart, h.once, h.ops, h.all, ⟨me, hs.cell, hs.id, hs.kind, hs.data, hs.ctrl, hs.outs⟩, h.others⟩

end Rtbot
