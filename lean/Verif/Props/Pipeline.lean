import Verif.Lemmas.Pipeline
import Verif.Lemmas.Write
import Verif.Spec.Toy

set_option linter.unusedSectionVars false

/-! # C50, C56: the ports of pipelines, the connections of created programs -/

namespace Rtbot
variable {V : Type} [Num V]
open Spec

/-! ## C56: connections -/

/-- C56: in a created program the table lists exactly the ids of the described operators, and the connections of every operator in it are exactly
the described ones, in the order of their descriptions. -/
theorem C56_wired {junk : Junk V} {json : Str} {j : Json V} {P : Prog V} (h : Prog.initWith junk json j = .ok P) :
    P = Prog.empty json ∨ ∃ os cs ws, Member j b!"operators" os ∧ Member j b!"connections" cs ∧
      (∀ id, P.ops.has id = true ↔ ∃ x ∈ os.items, HasId x id) ∧ (∀ id a, P.ops.find? id = some a → ∃ o, P.st.heap a = some o ∧ o.core.id = id) ∧
      List.Forall₂ (Asks P.ops P.st.heap) cs.items ws ∧
      ∀ id a p, P.ops.find? id = some a → connsOf P.st.heap a p = cablesFrom ws a p := by
  rcases initWith_wired h with h | ⟨os, cs, ws, m, h1, h2, h3, h4, h5, h6, h7, _⟩
  · exact Or.inl h
  · refine Or.inr ⟨os, cs, ws, h1, h2, h4, fun id a ha => ?_, h6, h7⟩
    obtain ⟨_, o, g1, g2, _⟩ := h5.listed id a ha
    exact ⟨o, by rw [h3]; exact g1, g2⟩

/-- C56: a description asks for one connection only. -/
theorem C56_unique {ops : Map Nat} {h : Nat → Option (Op V)} {j : Json V} {w w' : Cable} (h1 : Asks ops h j w) (h2 : Asks ops h j w') : w = w' := by
  have names : ∀ {k p p'}, NamesPort j k p → NamesPort j k p' → p = p' := by
    intro k p p' g g'
    rcases g with g | ⟨g, rfl⟩ <;> rcases g' with g' | ⟨g', rfl⟩
    · cases g.unique g'; rfl
    · exact absurd g (g' _)
    · exact absurd g' (g _)
    · rfl
  obtain ⟨a, p, ⟨b, q⟩⟩ := w
  obtain ⟨a', p', ⟨b', q'⟩⟩ := w'
  obtain ⟨id, g1, g2⟩ := h1.src
  obtain ⟨id', g3, g4⟩ := h2.src
  cases g1.unique g3
  obtain ⟨id2, g5, g6⟩ := h1.dst
  obtain ⟨id2', g7, g8⟩ := h2.dst
  cases g5.unique g7
  dsimp only at g2 g4 g6 g8
  rw [g2] at g4
  rw [g6] at g8
  cases g4
  cases g8
  obtain ⟨o, n, g9, g10, _, g11, g12⟩ := h1.out
  obtain ⟨o', n', g13, g14, _, g15, g16⟩ := h2.out
  dsimp only at g9 g13 g11 g12 g15 g16
  rw [g9] at g13
  cases g13
  cases names g10 g14
  have hp : p = p' := by
    rcases g12 with rfl | ⟨hn, g12⟩ <;> rcases g16 with rfl | ⟨hn', g16⟩
    · rfl
    · exact absurd hn' g11
    · exact absurd hn g15
    · rw [g12] at g16; cases g16; rfl
  obtain ⟨o2, n2, k1, k2, _, k3, k4⟩ := h1.inp
  obtain ⟨o2', n2', k5, k6, _, k7, k8⟩ := h2.inp
  dsimp only at k1 k5 k3 k4 k7 k8
  rw [k1] at k5
  cases k5
  cases names k2 k6
  have hq : q = q' := by
    rcases k4 with rfl | ⟨hn, k4, _⟩ <;> rcases k8 with rfl | ⟨hn', k8, _⟩
    · rfl
    · exact absurd hn' k3
    · exact absurd hn k7
    · rw [k4] at k8; cases k8; rfl
  rw [hp, hq]

/-! ## C50: pipelines -/

/-- C50: the constructor of Pipeline yields an operator with the given id whose inputs and outputs correspond, in the order of the names "id:port", to the
data inputs and the outputs of the inner operators that no inner connection uses. The inner operators are those of the description, connected as
described, pipelines nested to any depth included. -/
theorem C50_pipeline {junk : Junk V} {fuel : Nat} {id : Str} {prog : Json V} {m m' : Mem V} {o : Op V} (hfree : ∀ a, m.next ≤ a → m.heap a = none)
    (h : newPipeline (readOp junk fuel) id prog m = .ok (o, m')) :
    ∃ os cs ops ins outs pm ws, Member prog b!"operators" os ∧ Member prog b!"connections" cs ∧
      (∀ k, ops.has k = true ↔ ∃ x ∈ os.items, HasId x k) ∧ (∀ k a, ops.find? k = some a → ∃ o, m'.heap a = some o ∧ o.core.id = k) ∧
      List.Forall₂ (Asks ops m'.heap) cs.items ws ∧ (∀ k a p, ops.find? k = some a → connsOf m'.heap a p = cablesFrom ws a p) ∧
      Exposes ops m'.heap o ins outs pm ∧ o.core.id = id ∧ o.core.outputs = [] := by
  obtain ⟨os, cs, ops, ins, outs, pm, ws, h1, h2, h3, h4, h5, h6, h7, h8, h9, _⟩ := newPipeline_ok (readOp_reader junk fuel) hfree h
  refine ⟨os, cs, ops, ins, outs, pm, ws, h1, h2, h3, fun k a hk => ?_, h5, h6, h7, h8, h9⟩
  obtain ⟨_, o', g1, g2, _⟩ := h4.listed k a hk
  exact ⟨o', g1, g2⟩

/-- C50: all pipelines in a created program, nested ones included, expose exactly the free ports of their inner operators, which are not among the operators
of the program. -/
theorem C50_program {junk : Junk V} {json : Str} {j : Json V} {P : Prog V} (h : Prog.initWith junk json j = .ok P) {a : Nat} {o : Op V}
    {ins outs : Map Nat} {pm : Map Str} (ho : P.st.heap a = some o) (hk : o.kind = .pipeline ins outs pm) :
    ∃ inner, Exposes inner P.st.heap o ins outs pm ∧ ∀ id b, inner.find? id = some b → ∀ id', P.ops.find? id' ≠ some b := by
  rcases initWith_wired h with rfl | ⟨os, cs, ws, m, _, _, _, _, _, _, _, h8⟩
  · cases ho
  · obtain ⟨tbl, h1, h2⟩ := h8 a o ins outs pm (Nat.zero_le _) ho hk
    exact ⟨tbl, h1, fun id b hb => (h2 id b hb).2.2⟩

/-- C50: the correspondence of ports is one to one. -/
theorem C50_distinct {ops : Map Nat} {h : Nat → Option (Op V)} {o : Op V} {ins outs : Map Nat} {pm : Map Str} (e : Exposes ops h o ins outs pm) :
    ins.keys.Nodup ∧ outs.keys.Nodup ∧ (∀ (i : Nat) k k', ins.keys[i]? = some k → pm.find? (iPort (i + 1)) = some k' → k = k') ∧
    ∀ (i : Nat) k (i' : Nat) k', outs.keys[i]? = some k → outs.keys[i']? = some k' → pm.find? k = pm.find? k' → i = i' := by
  refine ⟨List.Pairwise.imp (fun h => strLt_ne h) e.insSorted, List.Pairwise.imp (fun h => strLt_ne h) e.outsSorted, ?_, ?_⟩
  · intro i k k' hi hk
    rw [e.mapIn i k hi] at hk
    exact Option.some.inj hk
  · intro i k i' k' hi hi' he
    rw [e.mapOut i k hi, e.mapOut i' k' hi'] at he
    have := oPort_inj (Option.some.inj he)
    omega

/-- A pipeline of an Identity "a" connected to the first input of a Join "j". -/
def Spec.joined : Json Int64 :=
  .obj [(b!"connections", .arr [.obj [(b!"from", .str b!"a"), (b!"to", .str b!"j"), (b!"toPort", .str i1)]]),
    (b!"operators", .arr [.obj [(b!"id", .str b!"j"), (b!"numPorts", .uint 2), (b!"type", .str b!"Join")],
      .obj [(b!"id", .str b!"a"), (b!"type", .str b!"Identity")]])]

/-- The inputs, outputs and port names of a pipeline. -/
def Spec.exposed (r : Except Err (Op Int64 × Mem Int64)) : Option (List (Str × Nat) × List (Str × Nat) × List (Str × Str)) :=
  match r with
  | .ok (o, _) => match o.kind with
    | .pipeline ins outs pm => some (ins, outs, pm)
    | _ => none
  | .error _ => none

set_option synthInstance.maxSize 1000 in
/-- Here "a:i1" and "j:i2" become i1 and i2, "j:o1" and "j:o2" become o1 and o2. -/
example : exposed (newPipeline (readOp (fun _ => (0, 0)) 3) b!"p" joined ⟨fun _ => none, 0⟩) =
    some ([(b!"a:i1", 1), (b!"j:i2", 0)], [(b!"j:o1", 0), (b!"j:o2", 0)],
      [(i1, b!"a:i1"), (i2, b!"j:i2"), (b!"j:o1", b!"o1"), (b!"j:o2", b!"o2")]) := by
  decide +kernel

set_option synthInstance.maxSize 1000 in
/-- A pipeline in a pipeline: the ports of the inner pipeline "q" are exposed again. -/
example : exposed (newPipeline (readOp (fun _ => (0, 0)) 4) b!"p" (.obj [(b!"connections", .arr []),
    (b!"operators", .arr [.obj [(b!"id", .str b!"q"), (b!"prog", joined), (b!"type", .str b!"Pipeline")]])]) ⟨fun _ => none, 0⟩) =
    some ([(b!"q:i1", 2), (b!"q:i2", 2)], [(b!"q:o1", 2), (b!"q:o2", 2)],
      [(i1, b!"q:i1"), (i2, b!"q:i2"), (b!"q:o1", b!"o1"), (b!"q:o2", b!"o2")]) := by
  decide +kernel

/-! ## C48: whole programs -/

/-- A written operator carries its id. -/
theorem write_id {o : Op V} {d : Json V} (h : o.write = .ok d) : HasId d o.core.id := by
  unfold Op.write at h
  split at h
  all_goals first
    | (cases h; exact described_id _ _ _)
    | (obtain ⟨n, _, h⟩ := bind_eq_ok.1 h; cases h; exact described_id _ _ _)
    | cases h

/-- C48 for a whole program: `getProgram` writes every operator of the table, each once, in the order of the ids, and nothing else. -/
theorem C48_program {P : Prog V} {j : Json V} (h : P.getProgram = .ok j) :
    ∃ ds, j = .arr ds ∧ List.Forall₂ (fun (e : Str × Nat) d => ∃ o, P.st.heap e.2 = some o ∧ o.write = .ok d) P.ops ds := by
  obtain ⟨ds, h1, h2⟩ := bind_eq_ok.1 h
  cases h2
  refine ⟨ds, rfl, ?_⟩
  clear h
  generalize P.ops = ops at h1
  induction ops generalizing ds with
  | nil => cases h1; exact .nil
  | cons e ops ih =>
    unfold writeOps at h1
    cases ho : P.st.heap e.2 with
    | none => rw [ho] at h1; cases h1
    | some o =>
      rw [ho] at h1
      obtain ⟨d, hd, h1⟩ := bind_eq_ok.1 h1
      obtain ⟨ds', hds, h1⟩ := bind_eq_ok.1 h1
      cases h1
      exact .cons ⟨o, ho, hd⟩ (ih _ hds)

/-- A concrete case: two operators. -/
example (junk : Junk Int64) (json : Str) : ∃ P d, Prog.initWith junk json (.obj [(b!"connections", .arr []), (b!"entryOperator", .str b!"b"),
      (b!"operators", .arr [.obj [(b!"id", .str b!"b"), (b!"type", .str b!"Identity")], .obj [(b!"id", .str b!"a"), (b!"type", .str b!"Count")]])] : Json Int64) = .ok P ∧
    P.getProgram = .ok d ∧ d = .arr [.obj [(b!"id", .str b!"a"), (b!"type", .str b!"Count")], .obj [(b!"id", .str b!"b"), (b!"type", .str b!"Identity")]] :=
  ⟨_, _, rfl, rfl, rfl⟩

/-- C48: the ids written for a created program are those of its table, in order. -/
theorem C48_program_ids {junk : Junk V} {json : Str} {j d : Json V} {P : Prog V} (h : Prog.initWith junk json j = .ok P) (hd : P.getProgram = .ok d) :
    ∃ ds, d = .arr ds ∧ List.Forall₂ HasId ds P.ops.keys := by
  obtain ⟨ds, e, hf⟩ := C48_program hd
  refine ⟨ds, e, ?_⟩
  have hids : ∀ id a, (id, a) ∈ P.ops → ∀ o, P.st.heap a = some o → o.core.id = id := by
    rcases initWith_wired h with h | ⟨os, cs, ws, m, h1, h2, h3, h4, h5, h6, h7, h8⟩
    · subst h; intro id a ha; cases ha
    · intro id a ha o ho
      obtain ⟨_, o', g1, g2, _⟩ := h5.listed id a ((mem_of_find h5.sorted).2 ha)
      rw [h3] at ho
      cases g1.symm.trans ho
      exact g2
  clear hd h e
  unfold Map.keys
  generalize P.ops = ops at hf hids
  induction hf with
  | nil => exact .nil
  | cons hx hr ih =>
    rename_i e d ops ds
    obtain ⟨o, ho, hw⟩ := hx
    refine .cons ?_ (ih fun id a ha => hids id a (by simp [ha]))
    have := write_id hw
    rw [hids e.1 e.2 (by simp) o ho] at this
    exact this

end Rtbot
