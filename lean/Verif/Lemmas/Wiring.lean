import Verif.Lemmas.Create
import Verif.Spec.Wiring

set_option linter.unusedSectionVars false

/-! # Connecting the operators of a table, inside a larger memory -/

namespace Rtbot
variable {V : Type} [Num V]
open Spec

/-! ## Names -/

theorem decRev_clean (f n : Nat) : (58 : UInt8) ∉ decRev f n := by
  induction f generalizing n with
  | zero => simp [decRev]
  | succ f ih =>
    have key : ∀ d, d < 10 → (58 : UInt8) ≠ UInt8.ofNat (48 + d) := by decide
    unfold decRev
    split
    · rename_i h
      simp only [List.mem_singleton]
      exact key n h
    · simp only [List.mem_cons, not_or]
      exact ⟨key _ (Nat.mod_lt _ (by decide)), ih _⟩

theorem toStr_clean (n : Nat) : (58 : UInt8) ∉ toStr n := by
  unfold toStr
  rw [List.mem_reverse]
  exact decRev_clean _ _

theorem iPort_clean (n : Nat) : (58 : UInt8) ∉ iPort n := by
  unfold iPort
  simp only [List.mem_cons, not_or]
  exact ⟨by decide, toStr_clean n⟩

theorem oPort_clean (n : Nat) : (58 : UInt8) ∉ oPort n := by
  unfold oPort
  simp only [List.mem_cons, not_or]
  exact ⟨by decide, toStr_clean n⟩

theorem cPort_clean (n : Nat) : (58 : UInt8) ∉ cPort n := by
  unfold cPort
  simp only [List.mem_cons, not_or]
  exact ⟨by decide, toStr_clean n⟩

theorem joinName_eq (id p : Str) : joinName id p = portName id p := by
  simp [joinName, portName]

theorem append_colon_inj : ∀ {a b p q : Str}, (58 : UInt8) ∉ p → (58 : UInt8) ∉ q → a ++ 58 :: p = b ++ 58 :: q → a = b ∧ p = q := by
  intro a
  induction a with
  | nil =>
    intro b p q hp hq h
    cases b with
    | nil => exact ⟨rfl, (List.cons.inj h).2⟩
    | cons c b =>
      have h2 := (List.cons.inj h).2
      exact absurd (by rw [h2]; simp) hp
  | cons c a ih =>
    intro b p q hp hq h
    cases b with
    | nil =>
      have h2 := (List.cons.inj h).2
      exact absurd (by rw [← h2]; simp) hq
    | cons d b =>
      have h1 := (List.cons.inj h).1
      obtain ⟨h3, h4⟩ := ih hp hq (List.cons.inj h).2
      exact ⟨by rw [h1, h3], h4⟩

/-- The name of a port determines operator and port. -/
theorem portName_inj {id id' p q : Str} (hp : (58 : UInt8) ∉ p) (hq : (58 : UInt8) ∉ q) (h : portName id p = portName id' q) : id = id' ∧ p = q :=
  append_colon_inj hp hq h

theorem portName_mem (id p : Str) : (58 : UInt8) ∈ portName id p := by simp [portName]

/-! ## Operators as they are created -/

/-- No port name contains a colon. -/
def CleanPorts (c : Core V) : Prop := ∀ p, p ∈ c.dataIn.keys ∨ p ∈ c.ctrlIn.keys ∨ p ∈ c.outIds → (58 : UInt8) ∉ p

theorem CleanPorts.data {c c' : Core V} (h : CleanPorts c) {p : Str} {max : Nat} (hp : (58 : UInt8) ∉ p) (hc : c.addDataInput p max = .ok c') : CleanPorts c' := by
  unfold Core.addDataInput at hc
  split at hc
  · cases hc
  · split at hc
    · cases hc
    · cases hc
      intro q hq
      rcases hq with hq | hq | hq
      · rw [← Map.find?_isSome_iff, Map.find?_emplace] at hq
        by_cases he : q = p
        · rw [he]; exact hp
        · refine h q (Or.inl ?_)
          rw [← Map.find?_isSome_iff]
          simp only [he, if_false] at hq
          exact hq
      · exact h q (Or.inr (Or.inl hq))
      · exact h q (Or.inr (Or.inr hq))

theorem CleanPorts.control {c c' : Core V} (h : CleanPorts c) {p : Str} {max : Nat} (hp : (58 : UInt8) ∉ p) (hc : c.addControlInput p max = .ok c') :
    CleanPorts c' := by
  unfold Core.addControlInput at hc
  split at hc
  · cases hc
  · split at hc
    · cases hc
    · cases hc
      intro q hq
      rcases hq with hq | hq | hq
      · exact h q (Or.inl hq)
      · rw [← Map.find?_isSome_iff, Map.find?_emplace] at hq
        by_cases he : q = p
        · rw [he]; exact hp
        · refine h q (Or.inr (Or.inl ?_))
          rw [← Map.find?_isSome_iff]
          simp only [he, if_false] at hq
          exact hq
      · exact h q (Or.inr (Or.inr hq))

theorem CleanPorts.output {c : Core V} (h : CleanPorts c) {p : Str} (hp : (58 : UInt8) ∉ p) : CleanPorts (c.addOutput p) := by
  intro q hq
  rcases hq with hq | hq | hq
  · exact h q (Or.inl hq)
  · exact h q (Or.inr (Or.inl hq))
  · rcases (mem_setInsert _ _ _).1 hq with rfl | hq
    · exact hp
    · exact h q (Or.inr (Or.inr hq))

theorem cleanPorts_new (id : Str) : CleanPorts (Core.new id : Core V) := by
  intro p hp
  simp [Core.new, Map.keys] at hp

theorem cleanPorts_simple (id : Str) (max : Nat) : CleanPorts (Core.simple id max : Core V) := by
  intro p hp
  simp only [Core.simple, Map.keys, List.map_cons, List.map_nil, List.mem_singleton, List.not_mem_nil, false_or] at hp
  rcases hp with rfl | rfl <;> decide

theorem addPorts_clean {c : Core V} (hc : CleanPorts c) (max n : Nat) : ∀ {c' pm}, addPorts c max n = .ok (c', pm) → CleanPorts c' := by
  induction n with
  | zero => intro c' pm h; cases h; exact hc
  | succ n ih =>
    intro c' pm h
    simp only [addPorts] at h
    obtain ⟨⟨c1, pm1⟩, h1, h2⟩ := bind_eq_ok.1 h
    obtain ⟨c2, h3, h4⟩ := bind_eq_ok.1 h2
    cases h4
    exact ((ih h1).data (iPort_clean _) h3).output (oPort_clean _)

theorem addInputs_clean {c : Core V} (hc : CleanPorts c) (max n : Nat) : ∀ {c'}, addInputs c max n = .ok c' → CleanPorts c' := by
  induction n with
  | zero => intro c' h; cases h; exact hc
  | succ n ih =>
    intro c' h
    simp only [addInputs] at h
    obtain ⟨c1, h1, h3⟩ := bind_eq_ok.1 h
    exact (ih h1).data (iPort_clean _) h3

theorem addControls_clean {c : Core V} (hc : CleanPorts c) (n : Nat) : ∀ {c' pm}, addControls c n = .ok (c', pm) → CleanPorts c' := by
  induction n with
  | zero => intro c' pm h; cases h; exact hc
  | succ n ih =>
    intro c' pm h
    simp only [addControls] at h
    obtain ⟨⟨c1, pm1⟩, h1, h2⟩ := bind_eq_ok.1 h
    obtain ⟨c2, h3, h4⟩ := bind_eq_ok.1 h2
    cases h4
    exact ((ih h1).control (cPort_clean _) h3).output (oPort_clean _)

theorem Spec.Built.clean {o : Op V} (h : Built o) : CleanPorts o.core := by
  cases h with
  | input h =>
    obtain ⟨⟨c, pm⟩, h1, h2⟩ := bind_eq_ok.1 h
    cases h2
    exact addPorts_clean (cleanPorts_new _) _ _ h1
  | output h =>
    obtain ⟨⟨c, pm⟩, h1, h2⟩ := bind_eq_ok.1 h
    cases h2
    exact addPorts_clean (cleanPorts_new _) _ _ h1
  | join h =>
    unfold Op.newJoin at h
    split at h
    · cases h
    · obtain ⟨⟨c, pm⟩, h1, h2⟩ := bind_eq_ok.1 h
      cases h2
      exact addPorts_clean (cleanPorts_new _) _ _ h1
  | linear h =>
    unfold Op.newLinear at h
    split at h
    · cases h
    · obtain ⟨c, h1, h2⟩ := bind_eq_ok.1 h
      cases h2
      exact (addInputs_clean (cleanPorts_new _) _ _ h1).output (by decide)
  | demux h =>
    unfold Op.newDemux at h
    split at h
    · cases h
    · obtain ⟨⟨c, pm⟩, h1, h2⟩ := bind_eq_ok.1 h
      obtain ⟨c2, h3, h4⟩ := bind_eq_ok.1 h2
      cases h4
      exact (addControls_clean (cleanPorts_new _) _ h1).data (by decide) h3
  | constRes h =>
    unfold Op.newConstRes at h
    split at h
    · cases h
    · cases h; exact cleanPorts_simple _ _
  | function h =>
    unfold Op.newFunction at h
    split at h
    · cases h
    · split at h
      · cases h
      · cases h; exact cleanPorts_simple _ _
  | binary id op =>
    intro p hp
    simp only [Op.newBinary, Map.keys, List.map_cons, List.map_nil, List.mem_cons, List.not_mem_nil, or_false, false_or] at hp
    rcases hp with (rfl | rfl) | rfl <;> decide
  | «variable» id v =>
    intro p hp
    simp only [Op.newVariable, Map.keys, List.map_cons, List.map_nil, List.mem_cons, List.not_mem_nil, or_false] at hp
    rcases hp with rfl | rfl | rfl <;> decide
  | collector id n =>
    intro p hp
    simp only [Op.newCollector, Map.keys, List.map_cons, List.map_nil, List.mem_cons, List.not_mem_nil, or_false] at hp
    subst hp
    decide
  | _ => exact cleanPorts_simple _ _

/-- What matters here about operators as they are created. -/
structure Neat (o : Op V) : Prop where
  whole : ∀ i q, o.kind ≠ .composite i q
  clean : CleanPorts o.core
  data : o.core.dataIn.Sorted
  ctrl : o.core.ctrlIn.Sorted
  outs : o.core.outputs.Sorted
  full : ∀ p cs, Map.find? o.core.outputs p = some cs → cs ≠ []

theorem Spec.Built.neat {o : Op V} (h : Built o) : Neat o := by
  have hn := h.new
  refine ⟨?_, h.clean, hn.core.data, hn.core.ctrl, ?_, ?_⟩
  · intro i q hk
    have := hn.simple
    unfold Simple at this
    rw [hk] at this
    exact this
  · rw [hn.core.alone]; exact .nil
  · intro p cs hf
    rw [hn.core.alone] at hf
    cases hf

/-! ## The meaning of names in connections -/

theorem connect_means {c child c' : Core V} {t : Nat} {op ip : Str} (h : c.connect child t op ip = .ok (some c')) :
    ∃ p q cs, MeansOutput c op p ∧ MeansInput child ip q ∧ c' = { c with outputs := c.outputs.put p (cs ++ [⟨t, q⟩]) } ∧
      (cs = [] ∧ Map.find? c.outputs p = none ∨ Map.find? c.outputs p = some cs) := by
  unfold Core.connect at h
  dsimp only at h
  generalize hop : (if op = [] then _ else op) = p at h
  generalize hip : (if ip = [] then _ else ip) = q at h
  split at h
  · cases h
  rename_i hq0
  split at h
  · cases h
  rename_i hp0
  split at h
  · rename_i h3
    simp only [Bool.and_eq_true, List.contains_iff_mem] at h3
    have hq : q ∈ child.dataIn.keys ∨ q ∈ child.ctrlIn.keys := by
      have := h3.2
      unfold Core.allInputs at this
      exact List.mem_append.1 this
    have hp1 : MeansOutput c op p := by
      refine ⟨h3.1, hp0, ?_⟩
      by_cases ho : op = []
      · rw [if_pos ho] at hop
        cases hout : c.outIds with
        | nil => rw [hout] at hop; exact absurd (hop.symm.trans ho) hp0
        | cons x xs =>
          cases xs with
          | nil => rw [hout] at hop; dsimp only at hop; exact Or.inr ⟨ho, by rw [hop]⟩
          | cons y ys => rw [hout] at hop; exact absurd (hop.symm.trans ho) hp0
      · rw [if_neg ho] at hop; exact Or.inl hop
    have hp2 : MeansInput child ip q := by
      refine ⟨hq, hq0, ?_⟩
      by_cases ho : ip = []
      · rw [if_pos ho] at hip
        cases hin : child.allInputs with
        | nil => rw [hin] at hip; exact absurd (hip.symm.trans ho) hq0
        | cons x xs =>
          cases xs with
          | nil =>
            rw [hin] at hip
            dsimp only at hip
            split at hip
            · rename_i hd
              refine Or.inr ⟨ho, ?_⟩
              unfold Core.allInputs at hin
              unfold Core.isData at hd
              rw [Map.has_iff] at hd
              rw [← hip]
              cases hk : child.dataIn.keys with
              | nil => rw [hk] at hd; cases hd
              | cons y ys =>
                rw [hk] at hin
                simp only [List.cons_append, List.cons.injEq, List.append_eq_nil_iff] at hin
                obtain ⟨h5, h6, h7⟩ := hin
                refine ⟨by rw [h5, h6], ?_⟩
                simpa [Map.keys] using h7
            · exact absurd (hip.symm.trans ho) hq0
          | cons y ys => rw [hin] at hip; exact absurd (hip.symm.trans ho) hq0
      · rw [if_neg ho] at hip; exact Or.inl hip
    split at h
    · rename_i hf
      cases h
      refine ⟨p, q, [], hp1, hp2, ?_, Or.inl ⟨rfl, hf⟩⟩
      have : c.outputs.has p = false := by unfold Map.has; rw [hf]; rfl
      simp [Map.emplace, this]
    · rename_i v hf
      cases h
      exact ⟨p, q, v, hp1, hp2, rfl, Or.inr hf⟩
  · cases h

theorem usedInput_means {x : ConnDesc} {c : Core V} {q : Str} (h : MeansInput c x.toPort q) : usedInput x c = portName x.to q := by
  obtain ⟨h1, _, h2⟩ := h
  unfold usedInput
  split
  · rename_i p i hd hc
    rw [hd, hc] at h1
    simp only [Map.keys, List.map_cons, List.map_nil, List.mem_singleton, List.not_mem_nil, or_false] at h1
    rw [h1, joinName_eq]
  · rename_i hno
    rcases h2 with h2 | ⟨_, h2, h3⟩
    · rw [h2, joinName_eq]
    · cases hd : c.dataIn with
      | nil => rw [hd] at h2; cases h2
      | cons e es =>
        cases es with
        | nil => exact (hno e.1 e.2 hd h3).elim
        | cons e' es => rw [hd] at h2; cases h2

theorem usedOutput_means {x : ConnDesc} {c : Core V} {p : Str} (h : MeansOutput c x.fromPort p) : usedOutput x c = portName x.from' p := by
  obtain ⟨h1, _, h2⟩ := h
  unfold usedOutput
  split
  · rename_i q hq
    rw [hq] at h1
    rw [List.mem_singleton.1 h1, joinName_eq]
  · rename_i hno
    rcases h2 with h2 | ⟨_, h2⟩
    · rw [h2, joinName_eq]
    · exact (hno p h2).elim

/-! ## One connection -/

/-- The memory of a table: the operators at its addresses, all at or above `lo`. -/
structure Table (lo : Nat) (ops : Map Nat) (m : Mem V) : Prop where
  sorted : ops.Sorted
  free : ∀ a, m.next ≤ a → m.heap a = none
  listed : ∀ id a, ops.find? id = some a → lo ≤ a ∧ ∃ o, m.heap a = some o ∧ o.core.id = id ∧ Neat o

theorem Table.unique {lo : Nat} {ops : Map Nat} {m : Mem V} (h : Table lo ops m) {id id' : Str} {a : Nat} (h1 : ops.find? id = some a)
    (h2 : ops.find? id' = some a) : id = id' := by
  obtain ⟨_, o, h3, h4, _⟩ := h.listed _ _ h1
  obtain ⟨_, o', h5, h6, _⟩ := h.listed _ _ h2
  rw [h3] at h5
  cases h5
  exact h4.symm.trans h6

/-- The operator without its connections. -/
def bare (o : Op V) : Op V := { o with core := { o.core with outputs := [] } }

/-- The second heap has the additional connections `ws`, all of them between operators of the table. -/
structure Wires (ops : Map Nat) (h h' : Nat → Option (Op V)) (ws : List Cable) : Prop where
  same : ∀ a, (h' a).map bare = (h a).map bare
  rest : ∀ a, (∀ id, ops.find? id ≠ some a) → h' a = h a
  conns : ∀ a p, connsOf h' a p = connsOf h a p ++ cablesFrom ws a p

theorem Wires.refl (ops : Map Nat) (h : Nat → Option (Op V)) : Wires ops h h [] :=
  ⟨fun _ => rfl, fun _ _ => rfl, fun _ _ => by simp [cablesFrom]⟩

theorem Wires.trans {ops : Map Nat} {h h' h'' : Nat → Option (Op V)} {ws ws' : List Cable} (w : Wires ops h h' ws) (w' : Wires ops h' h'' ws') :
    Wires ops h h'' (ws ++ ws') :=
  ⟨fun a => (w'.same a).trans (w.same a), fun a ha => (w'.rest a ha).trans (w.rest a ha),
    fun a p => by rw [w'.conns, w.conns, List.append_assoc, cablesFrom, cablesFrom, cablesFrom, List.filterMap_append]⟩

theorem Wires.op {ops : Map Nat} {h h' : Nat → Option (Op V)} {ws : List Cable} (w : Wires ops h h' ws) {a : Nat} {o : Op V} (ho : h a = some o) :
    ∃ o', h' a = some o' ∧ bare o' = bare o := by
  have := w.same a
  rw [ho] at this
  cases h1 : h' a with
  | none => rw [h1] at this; cases this
  | some o' => rw [h1] at this; exact ⟨o', rfl, Option.some.inj this⟩

theorem Wires.back {ops : Map Nat} {h h' : Nat → Option (Op V)} {ws : List Cable} (w : Wires ops h h' ws) {a : Nat} {o' : Op V} (ho : h' a = some o') :
    ∃ o, h a = some o ∧ bare o' = bare o := by
  have := w.same a
  rw [ho] at this
  cases h1 : h a with
  | none => rw [h1] at this; cases this
  | some o => rw [h1] at this; exact ⟨o, rfl, Option.some.inj this⟩

section bare
variable {o o' : Op V} (h : bare o' = bare o)
include h
theorem bare_id : o'.core.id = o.core.id := congrArg (fun o => o.core.id) h
theorem bare_data : o'.core.dataIn = o.core.dataIn := congrArg (fun o => o.core.dataIn) h
theorem bare_ctrl : o'.core.ctrlIn = o.core.ctrlIn := congrArg (fun o => o.core.ctrlIn) h
theorem bare_outIds : o'.core.outIds = o.core.outIds := congrArg (fun o => o.core.outIds) h
theorem bare_toProcess : o'.core.toProcess = o.core.toProcess := congrArg (fun o => o.core.toProcess) h
theorem bare_kind : o'.kind = o.kind := congrArg (fun o => o.kind) h
end bare

theorem Wires.asks {ops : Map Nat} {h h' : Nat → Option (Op V)} {ws : List Cable} (w : Wires ops h h' ws) {j : Json V} {c : Cable}
    (ha : Asks ops h' j c) : Asks ops h j c := by
  refine ⟨ha.src, ha.dst, ?_, ?_⟩
  · obtain ⟨o, p, h1, h2, h3⟩ := ha.out
    obtain ⟨o', h4, h5⟩ := w.back h1
    refine ⟨o', p, h4, h2, ?_⟩
    unfold MeansOutput at *
    rw [← bare_outIds h5]
    exact h3
  · obtain ⟨o, p, h1, h2, h3⟩ := ha.inp
    obtain ⟨o', h4, h5⟩ := w.back h1
    refine ⟨o', p, h4, h2, ?_⟩
    unfold MeansInput at *
    rw [← bare_data h5, ← bare_ctrl h5]
    exact h3

theorem Wires.asks' {ops : Map Nat} {h h' : Nat → Option (Op V)} {ws : List Cable} (w : Wires ops h h' ws) {j : Json V} {c : Cable}
    (ha : Asks ops h j c) : Asks ops h' j c := by
  refine ⟨ha.src, ha.dst, ?_, ?_⟩
  · obtain ⟨o, p, h1, h2, h3⟩ := ha.out
    obtain ⟨o', h4, h5⟩ := w.op h1
    refine ⟨o', p, h4, h2, ?_⟩
    unfold MeansOutput at *
    rw [bare_outIds h5]
    exact h3
  · obtain ⟨o, p, h1, h2, h3⟩ := ha.inp
    obtain ⟨o', h4, h5⟩ := w.op h1
    refine ⟨o', p, h4, h2, ?_⟩
    unfold MeansInput at *
    rw [bare_data h5, bare_ctrl h5]
    exact h3

theorem value_names {j : Json V} {k p : Str} {x : Json V} {k' : Str} (hj : Member j k' x) (h : j.value k [] Json.getStr = .ok p) : NamesPort j k p := by
  obtain ⟨m, rfl, _⟩ := hj
  simp only [Json.value] at h
  cases hf : Map.find? m k with
  | none =>
    rw [hf] at h
    cases h
    exact Or.inr ⟨fun y ⟨m', he, hy⟩ => (by cases he; rw [hf] at hy; cases hy), rfl⟩
  | some y =>
    rw [hf] at h
    rw [getStr_ok h] at hf
    exact Or.inl ⟨m, rfl, hf⟩

theorem readConn_ok {j : Json V} {x : ConnDesc} (h : readConn j = .ok x) : Member j b!"from" (.str x.from') ∧ Member j b!"to" (.str x.to) ∧
    NamesPort j b!"fromPort" x.fromPort ∧ NamesPort j b!"toPort" x.toPort := by
  unfold readConn at h
  obtain ⟨y1, h1, h⟩ := bind_eq_ok.1 h
  obtain ⟨f, h2, h⟩ := bind_eq_ok.1 h
  obtain ⟨y2, h3, h⟩ := bind_eq_ok.1 h
  obtain ⟨t, h4, h⟩ := bind_eq_ok.1 h
  obtain ⟨tp, h5, h⟩ := bind_eq_ok.1 h
  obtain ⟨fp, h6, h⟩ := bind_eq_ok.1 h
  cases h
  have m1 := sub_ok h1
  have m2 := sub_ok h3
  rw [getStr_ok h2] at m1
  rw [getStr_ok h4] at m2
  exact ⟨m1, m2, value_names m1 h6, value_names m1 h5⟩

/-- A successful connection changes the connections of one operator. -/
theorem makeConn_neat {ops : Map Nat} {x : ConnDesc} {m m' : Mem V} {lo : Nat} (hs : Table lo ops m) (h : makeConn ops x m = .ok m') :
    ∃ a b o t c, ops.find? x.from' = some a ∧ ops.find? x.to = some b ∧ m.heap a = some o ∧ m.heap b = some t ∧
      o.core.connect t.core b x.fromPort x.toPort = .ok (some c) ∧
      m' = { m with heap := fun y => if y = a then some { o with core := c } else m.heap y } := by
  unfold makeConn at h
  obtain ⟨a, h1, h⟩ := bind_eq_ok.1 h
  obtain ⟨b, h2, h⟩ := bind_eq_ok.1 h
  have h1 := mapAt_ok.1 h1
  have h2 := mapAt_ok.1 h2
  unfold connectOp at h
  simp only [bind, M.bind, getOp, Mem.st] at h
  cases ha : m.heap a with
  | none => rw [ha] at h; cases h
  | some o =>
    rw [ha] at h
    dsimp only at h
    cases hb : m.heap b with
    | none => rw [hb] at h; cases h
    | some t =>
      rw [hb] at h
      dsimp only at h
      have hk : ∀ i q, o.kind ≠ .composite i q := by
        obtain ⟨_, o', h3, _, h4⟩ := hs.listed _ _ h1
        rw [ha] at h3
        cases h3
        exact h4.whole
      have key : (match localRun a (Op.connect t.core b x.fromPort x.toPort) ⟨m.heap, 0, []⟩ with
          | .err e _ => .error e
          | .ok true s => .ok { m with heap := s.heap }
          | .ok false _ => throwExc .runtime : Except Err (Mem V)) = .ok m' := by
        cases hkind : o.kind <;> rw [hkind] at h hk <;> first | exact h | exact (hk _ _ rfl).elim
      unfold localRun at key
      dsimp only at key
      rw [ha] at key
      dsimp only [Op.connect] at key
      cases hc : o.core.connect t.core b x.fromPort x.toPort with
      | error e => rw [hc] at key; cases key
      | ok r =>
        rw [hc] at key
        cases r with
        | none => cases key
        | some c =>
          cases key
          exact ⟨a, b, o, t, c, h1, h2, ha, hb, hc, rfl⟩

/-- One connection. -/
theorem makeConn_wires {ops : Map Nat} {j : Json V} {x : ConnDesc} {m m' : Mem V} {lo : Nat} (hs : Table lo ops m) (hx : readConn j = .ok x)
    (h : makeConn ops x m = .ok m') : ∃ w, Asks ops m.heap j w ∧ Wires ops m.heap m'.heap [w] ∧ Table lo ops m' ∧ m'.next = m.next ∧
      ops.find? x.from' = some w.src ∧ ops.find? x.to = some w.conn.target ∧
      (∀ o, m'.heap w.src = some o → MeansOutput o.core x.fromPort w.port) ∧ (∀ o, m'.heap w.conn.target = some o → MeansInput o.core x.toPort w.conn.port) := by
  obtain ⟨a, b, o, t, c, h1, h2, ha, hb, hc, rfl⟩ := makeConn_neat hs h
  obtain ⟨p, q, cs, hp, hq, rfl, hcs⟩ := connect_means hc
  obtain ⟨j1, j2, j3, j4⟩ := readConn_ok hx
  have hconns : connsOf m.heap a p = cs := by
    unfold connsOf
    rw [ha]
    rcases hcs with ⟨rfl, hf⟩ | hf <;> simp [hf]
  have hW : Wires ops m.heap (fun y => if y = a then some { o with core := { o.core with outputs := o.core.outputs.put p (cs ++ [⟨b, q⟩]) } } else m.heap y)
      [⟨a, p, ⟨b, q⟩⟩] := by
    refine ⟨?_, ?_, ?_⟩
    · intro y
      dsimp only
      split
      · rename_i he; rw [he, ha]; rfl
      · rfl
    · intro y hy
      dsimp only
      rw [if_neg]
      rintro rfl
      exact hy _ h1
    · intro y r
      by_cases hy : y = a
      · subst hy
        by_cases hr : r = p
        · subst hr
          rw [hconns]
          simp [connsOf, cablesFrom, Map.find?_put_self]
        · have : ¬ p = r := fun he => hr he.symm
          simp [connsOf, cablesFrom, Map.find?_put_ne _ _ hr, ha, this]
      · have : ¬ a = y := fun he => hy he.symm
        simp [connsOf, cablesFrom, hy, this]
  refine ⟨⟨a, p, ⟨b, q⟩⟩, ⟨⟨_, j1, h1⟩, ⟨_, j2, h2⟩, ⟨o, _, ha, j3, hp⟩, ⟨t, _, hb, j4, hq⟩⟩, hW, ⟨hs.sorted, ?_, ?_⟩, rfl, h1, h2, ?_, ?_⟩
  · intro y hy
    have := hs.free y hy
    dsimp only
    rw [if_neg]
    · exact this
    · rintro rfl
      rw [this] at ha
      cases ha
  · intro id y hy
    obtain ⟨h3, o', h4, h5, h6⟩ := hs.listed id y hy
    refine ⟨h3, ?_⟩
    dsimp only
    split
    · rename_i he
      rw [he, ha] at h4
      cases h4
      refine ⟨_, rfl, h5, ⟨h6.whole, h6.clean, h6.data, h6.ctrl, h6.outs.put _ _, ?_⟩⟩
      intro r cs' hf
      dsimp only at hf
      rw [Map.find?_put] at hf
      split at hf
      · cases hf; simp
      · exact h6.full r cs' hf
    · exact ⟨o', h4, h5, h6⟩
  · intro o' ho'
    obtain ⟨o2, h3, h4⟩ := hW.back ho'
    dsimp only at h3
    rw [ha] at h3
    cases h3
    unfold MeansOutput at *
    rw [bare_outIds h4]
    exact hp
  · intro o' ho'
    obtain ⟨o2, h3, h4⟩ := hW.back ho'
    dsimp only at h3
    rw [hb] at h3
    cases h3
    unfold MeansInput at *
    rw [bare_data h4, bare_ctrl h4]
    exact hq

/-! ## All connections -/

theorem makeConns_wires {ops : Map Nat} {lo : Nat} (js : List (Json V)) : ∀ {m m' : Mem V}, Table lo ops m → makeConns ops js m = .ok m' →
    ∃ ws, List.Forall₂ (Asks ops m.heap) js ws ∧ Wires ops m.heap m'.heap ws ∧ Table lo ops m' ∧ m'.next = m.next := by
  induction js with
  | nil => intro m m' hs h; cases h; exact ⟨[], .nil, .refl _ _, hs, rfl⟩
  | cons j js ih =>
    intro m m' hs h
    obtain ⟨x, h0, h⟩ := bind_eq_ok.1 h
    obtain ⟨m1, h1, h⟩ := bind_eq_ok.1 h
    obtain ⟨w, w1, w2, w3, w4, _⟩ := makeConn_wires hs h0 h1
    obtain ⟨ws, v1, v2, v3, v4⟩ := ih w3 h
    exact ⟨w :: ws, .cons w1 (v1.imp fun _ _ ha => w2.asks ha), w2.trans v2, v3, v4.trans w4⟩

/-- The names of the input ports that connections lead to. -/
def InNames (ops : Map Nat) (ws : List Cable) (k : Str) : Prop := ∃ w ∈ ws, ∃ id, ops.find? id = some w.conn.target ∧ k = portName id w.conn.port

/-- The names of the output ports that connections come from. -/
def OutNames (ops : Map Nat) (ws : List Cable) (k : Str) : Prop := ∃ w ∈ ws, ∃ id, ops.find? id = some w.src ∧ k = portName id w.port

theorem pipeConns_wires {ops : Map Nat} {lo : Nat} (js : List (Json V)) : ∀ {m m' : Mem V} {ui uo ui' uo' : List Str}, Table lo ops m →
    pipeConns ops js m ui uo = .ok (m', ui', uo') →
    ∃ ws, List.Forall₂ (Asks ops m.heap) js ws ∧ Wires ops m.heap m'.heap ws ∧ Table lo ops m' ∧ m'.next = m.next ∧
      (∀ k, k ∈ ui' ↔ k ∈ ui ∨ InNames ops ws k) ∧ ∀ k, k ∈ uo' ↔ k ∈ uo ∨ OutNames ops ws k := by
  induction js with
  | nil =>
    intro m m' ui uo ui' uo' hs h
    cases h
    exact ⟨[], .nil, .refl _ _, hs, rfl, fun k => by simp [InNames], fun k => by simp [OutNames]⟩
  | cons j js ih =>
    intro m m' ui uo ui' uo' hs h
    obtain ⟨x, h0, h⟩ := bind_eq_ok.1 h
    obtain ⟨m1, h1, h⟩ := bind_eq_ok.1 h
    obtain ⟨b, h2, h⟩ := bind_eq_ok.1 h
    obtain ⟨o2, h3, h⟩ := bind_eq_ok.1 h
    obtain ⟨a, h4, h⟩ := bind_eq_ok.1 h
    obtain ⟨o1, h5, h⟩ := bind_eq_ok.1 h
    obtain ⟨w, w1, w2, w3, w4, w5, w6, w7, w8⟩ := makeConn_wires hs h0 h1
    have e2 : w.conn.target = b := Option.some.inj (w6.symm.trans (mapAt_ok.1 h2))
    have e4 : w.src = a := Option.some.inj (w5.symm.trans (mapAt_ok.1 h4))
    rw [← e2] at h3
    rw [← e4] at h5
    obtain ⟨ws, v1, v2, v3, v4, v5, v6⟩ := ih w3 h
    refine ⟨w :: ws, .cons w1 (v1.imp fun _ _ ha => w2.asks ha), w2.trans v2, v3, v4.trans w4, ?_, ?_⟩
    · intro k
      rw [v5, mem_setInsert, usedInput_means (w8 _ (mop_ok.1 h3))]
      constructor
      · rintro ((rfl | hk) | ⟨w', hw', id, h7, h8⟩)
        · exact Or.inr ⟨w, by simp, _, w6, rfl⟩
        · exact Or.inl hk
        · exact Or.inr ⟨w', List.mem_cons_of_mem _ hw', id, h7, h8⟩
      · rintro (hk | ⟨w', hw', id, h7, h8⟩)
        · exact Or.inl (Or.inr hk)
        · rcases List.mem_cons.1 hw' with rfl | hw'
          · rw [w3.unique h7 w6] at h8
            exact Or.inl (Or.inl h8)
          · exact Or.inr ⟨w', hw', id, h7, h8⟩
    · intro k
      rw [v6, mem_setInsert, usedOutput_means (w7 _ (mop_ok.1 h5))]
      constructor
      · rintro ((rfl | hk) | ⟨w', hw', id, h7, h8⟩)
        · exact Or.inr ⟨w, by simp, _, w5, rfl⟩
        · exact Or.inl hk
        · exact Or.inr ⟨w', List.mem_cons_of_mem _ hw', id, h7, h8⟩
      · rintro (hk | ⟨w', hw', id, h7, h8⟩)
        · exact Or.inl (Or.inr hk)
        · rcases List.mem_cons.1 hw' with rfl | hw'
          · rw [w3.unique h7 w5] at h8
            exact Or.inl (Or.inl h8)
          · exact Or.inr ⟨w', hw', id, h7, h8⟩

end Rtbot
