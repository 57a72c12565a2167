import Verif.Lemmas.Shut
import Verif.Props.Pipeline
import Verif.Lemmas.WrapRun
import Verif.Lemmas.Fuel
import Mathlib.Data.List.Sort
import Verif.Spec.Toy

set_option linter.unusedSectionVars false

/-! # C51: wrapping operators in a pipeline -/

namespace Rtbot
variable {V : Type} [Num V]
open Spec

theorem oneColon {k id p : Str} (h : k.count 58 = 1) (e : k = portName id p) : (58 : UInt8) ∉ id ∧ (58 : UInt8) ∉ p := by
  subst e
  simp only [portName, List.count_append, List.count_cons_self] at h
  exact ⟨List.count_eq_zero.1 (by omega), List.count_eq_zero.1 (by omega)⟩

theorem beyond_closed (h : Nat → Option (Op V)) (a : Nat) : Closed (Beyond h a) h := fun b c ⟨q, x, hx, hr⟩ he => ⟨q, x, hx, hr.step he⟩

theorem beyond_apart {h : Nat → Option (Op V)} {a : Nat} {I : Nat → Prop} (enc : Encloses h a I) (loop : ¬ Beyond h a a) : ∀ b, I b → ¬ Beyond h a b := by
  rintro b hb ⟨q, x, hx, hr⟩
  induction hr with
  | refl => exact enc.conns q x hx hb
  | step hr he ih =>
    rcases enc.entered _ _ hb he with h' | rfl
    · exact ih h'
    · exact loop ⟨q, x, hx, hr⟩

theorem down_of {h : Nat → Option (Op V)} {a : Nat} (hw : HeapWF h) (loop : ¬ Beyond h a a) : Down (Beyond h a) h a :=
  ⟨hw, beyond_closed h a, loop, fun q c hc => ⟨q, c, hc, .refl⟩⟩

section
variable {inner ins outs : Map Nat} {pm : Map Str} {h : Nat → Option (Op V)} {o : Op V} (e : Exposes inner h o ins outs pm)
  (names : ∀ k, k ∈ ins.keys ∨ k ∈ outs.keys → k.count 58 = 1)
include e names

theorem outWell_of : OutWell o outs pm := by
  refine ⟨fun k hk => ?_, e.outsSorted, e.mapOut, fun n hn => (e.outIds _).2 ⟨n, hn, rfl⟩⟩
  have hs := (Map.find?_isSome_iff _ _).2 hk
  obtain ⟨b, hb⟩ := Option.isSome_iff_exists.1 hs
  obtain ⟨id, p, rfl, _⟩ := (e.outputs k b).1 hb
  exact ⟨id, p, rfl, oneColon (names _ (Or.inr hk)) rfl⟩

theorem inWell_of : InWell ins pm := by
  refine ⟨fun k hk => ?_, e.mapIn⟩
  have hs := (Map.find?_isSome_iff _ _).2 hk
  obtain ⟨b, hb⟩ := Option.isSome_iff_exists.1 hs
  obtain ⟨id, p, rfl, _⟩ := (e.inputs k b).1 hb
  exact ⟨id, p, rfl, oneColon (names _ (Or.inl hk)) rfl⟩

theorem only_of (q k : Str) (t : Nat) (hq : pm.find? q = some k) (ht : ins.find? k = some t) : ∃ n : Nat, q = iPort (n + 1) ∧ ins.keys[n]? = some k := by
  rcases e.mapOnly q k hq with h1 | ⟨n, _, rfl⟩
  · exact h1
  · obtain ⟨id, p, hk, _⟩ := (e.inputs _ t).1 ht
    have : (58 : UInt8) ∈ oPort (n + 1) := by rw [hk]; exact portName_mem _ _
    exact absurd this (oPort_clean _)
end

/-- C51: a pipeline that gets messages on its inputs one after the other emits on each output exactly what the inner operators report for the port that the
output stands for when they get the same messages directly, each on the port that the input stands for; its inner operators end up in the same state. As long
as the pipeline's outputs are not connected, the pipeline succeeds or fails exactly as the inner operators do.
The names of the inner ports must contain no further colon and the outputs must not lead back to the pipeline. -/
theorem C51_fed_partial {s : St V} {a : Nat} {o : Op V} {inner ins outs : Map Nat} {pm : Map Str} {I : Nat → Prop} (ho : s.heap a = some o)
    (e : Exposes inner s.heap o ins outs pm) (hw : HeapWF s.heap) (idle : o.core.toProcess = []) (enc : Encloses s.heap a I) (loop : ¬ Beyond s.heap a a)
    (names : ∀ k, k ∈ ins.keys ∨ k ∈ outs.keys → k.count 58 = 1) (fuel : Nat) {l : List (Nat × Msg V)} {dl : List (Nat × Str × Msg V)}
    (hl : List.Forall₂ (ForInner ins) l dl) :
    (∀ rs s', feeds (fuel + 1) (l.map fun x => (a, iPort (x.1 + 1), x.2)) s = .ok rs s' → ∃ rds sd', feeds fuel dl s = .ok rds sd' ∧ (∀ b, I b → s'.heap b = sd'.heap b) ∧
      ∃ evs, s'.log = s.log ++ evs ∧ ∀ (k : Nat) id p, outs.keys[k]? = some (portName id p) → emittedBy a (oPort (k + 1)) evs = rds.flatMap fun r => listed r id p) ∧
    (o.core.outputs = [] → (∀ rds sd', feeds fuel dl s = .ok rds sd' → ∃ rs s', feeds (fuel + 1) (l.map fun x => (a, iPort (x.1 + 1), x.2)) s = .ok rs s') ∧
      ∀ x sd', feeds fuel dl s = .err x sd' → ∃ s', feeds (fuel + 1) (l.map fun x => (a, iPort (x.1 + 1), x.2)) s = .err x s') :=
  feeds_pipe (inWell_of e names) fuel hl
    ⟨ho, e.kind, idle, outWell_of e names, down_of hw loop, enc.closed, fun k t ht => enc.inputs o ins outs pm k t ho e.kind ht, enc.self, beyond_apart enc loop⟩ (.refl s)

/-- C51: in a created program, every pipeline exposes free ports of inner operators, which belong to it alone: they exchange messages only with each other
and get messages only from the pipeline. None of them is among the operators of the program itself, and nothing is waiting in the pipeline. -/
theorem C51_enclosed {junk : Junk V} {json : Str} {j : Json V} {P : Prog V} (h : Prog.initWith junk json j = .ok P) {a : Nat} {o : Op V}
    {ins outs : Map Nat} {pm : Map Str} (ho : P.st.heap a = some o) (hk : o.kind = .pipeline ins outs pm) :
    ∃ inner I, Exposes inner P.st.heap o ins outs pm ∧ Encloses P.st.heap a I ∧ (∀ id b, P.ops.find? id = some b → ¬ I b) ∧ o.core.toProcess = [] ∧ HeapWF P.st.heap := by
  rcases initWith_wired h with rfl | ⟨_, _, _, _, _, _, _, _, _, _, _, h8⟩
  · cases ho
  rcases initWith_shut h with rfl | ⟨m, hm, hs⟩
  · cases ho
  obtain ⟨tbl, h1, _⟩ := h8 a o ins outs pm (Nat.zero_le _) ho hk
  have hheap : P.st.heap = m.heap := by rw [hm]; rfl
  rw [hheap] at ho h1 ⊢
  obtain ⟨l, f, ft⟩ := hs.pipes a o ins outs pm (Nat.zero_le _) ho hk
  refine ⟨tbl, fun b => l ≤ b ∧ b < a, h1, ⟨?_, fun b c hb he => f.closed b c hb.1 hb.2 he, ?_, fun hc => by omega, f.conns⟩, fun id b hb => ft b ⟨id, hb⟩,
    (hs.fine a o (Nat.zero_le _) ho).2, fun b o' ho' => ?_⟩
  · intro o' ins' outs' pm' k t ho' hk' ht
    rw [ho] at ho'
    cases ho'
    rw [hk] at hk'
    cases hk'
    exact f.inputs k t ht
  · intro b c hc he
    have := f.entered b c (Nat.zero_le _) hc.1 hc.2 he
    by_cases hb : b = a
    · exact Or.inr hb
    · exact Or.inl (by omega)
  · have := (hs.fine b o' (Nat.zero_le _) ho').1
    exact ⟨this.data, this.ctrl⟩

/-- C51: whatever a created program with a pipeline anywhere in it is fed, doing the calls made on the pipeline directly on its inner operators leads to the same
states of these, and the pipeline emits on each output exactly what they report for the port that the output stands for, in the same order.
The names of the inner ports must contain no further colon and the outputs must not lead back to the pipeline. -/
theorem C51_program_partial {junk : Junk V} {json : Str} {j : Json V} {P : Prog V} (h : Prog.initWith junk json j = .ok P) {a : Nat} {o : Op V}
    {ins outs : Map Nat} {pm : Map Str} (ho : P.st.heap a = some o) (hk : o.kind = .pipeline ins outs pm) (loop : ¬ Beyond P.st.heap a a)
    (names : ∀ k, k ∈ ins.keys ∨ k ∈ outs.keys → k.count 58 = 1) {fuel : Nat} {calls : List (OpMsg V)} {rs : List (ProgMsg V)} {P' : Prog V}
    (hrun : debugRun fuel calls P = .ok rs P') :
    ∃ I, Encloses P.st.heap a I ∧ (∀ id b, P.ops.find? id = some b → ¬ I b) ∧ ∃ evs rds ks sd, P'.st.log = P.st.log ++ evs ∧
      Direct ins [] P.st (actsOf a evs) rds ks sd ∧ (∀ b, I b → P'.st.heap b = sd.heap b) ∧
      ∀ (k : Nat) id p, outs.keys[k]? = some (portName id p) → emittedBy a (oPort (k + 1)) evs = rds.flatMap fun r => listed r id p := by
  obtain ⟨inner, I, e, enc, htop, idle, hw⟩ := C51_enclosed h ho hk
  refine ⟨I, enc, htop, ?_⟩
  cases hx : P.ops.find? P.entry with
  | none =>
    cases calls with
    | nil =>
      cases hrun
      exact ⟨[], [], [], P.st, by simp, .nil _ _, fun _ _ => rfl, fun _ _ _ _ => rfl⟩
    | cons msgs calls =>
      simp only [debugRun, Prog.receiveDebug, hx] at hrun
      cases hrun
  | some x =>
    have hpend : pend o [] = o := by
      unfold pend
      rw [← idle]
    have c : PipeCtx a o ins outs pm I (Beyond P.st.heap a) P.st :=
      ⟨⟨[], by rw [hpend]; exact ho, .nil⟩, hk, e.ctrlIn, outWell_of e names, inWell_of e names, only_of e names, down_of hw loop, enc.closed,
        fun k t ht => enc.inputs o ins outs pm k t ho hk ht, enc.self, beyond_apart enc loop, enc.entered⟩
    obtain ⟨evs, l1, t1⟩ := (debugRun_track (htop _ _ hx) calls hx c hrun).trace
    obtain ⟨rds, ks, sd, g1, _, _, g4, g5⟩ := t1 [] P.st (by rw [hpend]; exact ho) .nil (.refl _)
    exact ⟨evs, rds, ks, sd, l1, g1, g4, g5⟩

/-! ## The calls on the inner operators are determined -/

theorem fuel_same {σ α : Type} {x : Nat → M σ α} (hle : ∀ n, Le (x n) (x (n + 1))) {s s1 s2 : σ} {v1 v2 : α} {n1 n2 : Nat} (h1 : x n1 s = .ok v1 s1)
    (h2 : x n2 s = .ok v2 s2) : v1 = v2 ∧ s1 = s2 := by
  have up : ∀ {n v s1} (k : Nat), x n s = .ok v s1 → x (n + k) s = .ok v s1 := by
    intro n v s1 k h
    induction k with
    | zero => exact h
    | succ k ih =>
      have := hle (n + k) s (by rw [ih]; intro t ht; cases ht)
      rw [ih] at this
      exact this
  have e1 := up n2 h1
  have e2 := up n1 h2
  rw [Nat.add_comm n1 n2, e2] at e1
  cases e1
  exact ⟨rfl, rfl⟩

theorem execs_le (ts : List Nat) : ∀ n, Le (execs (V := V) n ts) (execs (n + 1) ts) := by
  induction ts with
  | nil => intro n; exact Le.refl _
  | cons t ts ih =>
    intro n
    simp only [execs]
    exact Le.bind (exec_le n _ _) fun _ => Le.bind (ih n) fun _ => Le.refl _

theorem sorted_eq {l l' : List Str} (h : SetSorted l) (h' : SetSorted l') (he : ∀ k, k ∈ l ↔ k ∈ l') : l = l' :=
  List.Perm.eq_of_pairwise (fun a b _ _ h1 h2 => by rw [strLt_asymm h1] at h2; cases h2) h h'
    ((List.perm_ext_iff_of_nodup (List.Pairwise.imp (fun h => strLt_ne h) h) (List.Pairwise.imp (fun h => strLt_ne h) h')).2 he)

/-- C51: doing calls on the inner operators directly is a function of the calls: the reports and the final state are determined. -/
theorem C51_direct {ins : Map Nat} (names : ∀ k, k ∈ ins.keys → k.count 58 = 1) {ks ks1 ks2 : List Str} {s s1 s2 : St V} {as : List (Act V)}
    {rs1 rs2 : List (ProgMsg V)} (h1 : Direct ins ks s as rs1 ks1 s1) (h2 : Direct ins ks s as rs2 ks2 s2) : rs1 = rs2 ∧ ks1 = ks2 ∧ s1 = s2 := by
  induction h1 generalizing rs2 ks2 s2 with
  | nil => cases h2; exact ⟨rfl, rfl, rfl⟩
  | @recv ks ka ks' s sa s' fuel n t id p q m as rs port target name note sorted call rest ih =>
    cases h2 with
    | @recv _ kb _ _ sb _ fuel' n' t' id' p' _ _ _ _ port' target' name' note' sorted' call' rest' =>
      have hn : n = n' := by
        have hlen : ∀ {i : Nat} {k : Str}, ins.keys[i]? = some k → ins.length = 1 → i = 0 := by
          intro i k hk hl
          obtain ⟨hi, _⟩ := List.getElem?_eq_some_iff.1 hk
          simp only [Map.keys, List.length_map] at hi
          omega
        rcases name with rfl | ⟨rfl, hl⟩ <;> rcases name' with hq | ⟨hq, hl'⟩
        · have := iPort_inj hq; omega
        · simp [iPort] at hq
        · simp [iPort] at hq
        · rw [hlen port hl, hlen port' hl]
      subst hn
      rw [port] at port'
      have hk := Option.some.inj port'
      have hmem := List.mem_of_getElem? port
      obtain ⟨c1, c2⟩ := oneColon (names _ hmem) rfl
      obtain ⟨rfl, rfl⟩ := portName_plain c1 c2 hk.symm
      rw [target] at target'
      cases target'
      obtain ⟨_, rfl⟩ := fuel_same (fun n => recvData_le n none t m p') call call'
      have hks : ka = kb := sorted_eq sorted sorted' fun k => by rw [note, note']
      subst hks
      exact ih rest'
  | @exec ks ks' s sa s' fuel ts as rs rs' targets call rest ih =>
    cases h2 with
    | @exec _ _ _ sb _ fuel' ts' _ rsb rsb' targets' call' rest' =>
      have hts : ts = ts' := by
        clear call call' ih rest rest'
        induction targets generalizing ts' with
        | nil => cases targets'; rfl
        | cons hx _ ih =>
          cases targets' with
          | cons hx' h' =>
            rw [hx] at hx'
            cases hx'
            rw [ih h']
      subst hts
      obtain ⟨rfl, rfl⟩ := fuel_same (execs_le ts) call call'
      obtain ⟨rfl, rfl, rfl⟩ := ih rest'
      exact ⟨rfl, rfl, rfl⟩
  | ctrl rest ih =>
    cases h2 with
    | ctrl rest' => exact ih rest'

/-! ## An example -/

/-- A program whose input goes to both inputs of the pipeline `joined`, whose first output is summed up. -/
def Spec.wrapped : Json Int64 :=
  .obj [(b!"connections", .arr [.obj [(b!"from", .str b!"in"), (b!"to", .str b!"p"), (b!"toPort", .str b!"i1")],
          .obj [(b!"from", .str b!"in"), (b!"to", .str b!"p"), (b!"toPort", .str b!"i2")],
          .obj [(b!"from", .str b!"p"), (b!"fromPort", .str b!"o1"), (b!"to", .str b!"s")]]),
    (b!"entryOperator", .str b!"in"),
    (b!"operators", .arr [.obj [(b!"id", .str b!"in"), (b!"type", .str b!"Identity")],
      .obj [(b!"id", .str b!"p"), (b!"prog", joined), (b!"type", .str b!"Pipeline")],
      .obj [(b!"id", .str b!"s"), (b!"type", .str b!"CumulativeSum")]])]

/-- What the pipeline "p" emits when the program gets messages. -/
def Spec.wrappedOut (calls : List (OpMsg Int64)) : Option (List (Msg Int64) × List (Msg Int64)) :=
  match Prog.initWith (fun _ => (0, 0)) [] wrapped with
  | .error _ => none
  | .ok P => match debugRun 20 calls P with
    | .err _ _ => none
    | .ok _ P' => some (emittedBy 3 o1 P'.st.log, emittedBy 3 b!"o2" P'.st.log)

set_option synthInstance.maxSize 1000 in
/-- The program works. -/
example : wrappedOut [[(i1, [⟨1, 5⟩])], [(i1, [⟨2, 7⟩])]] = some ([⟨1, 5⟩, ⟨2, 7⟩], [⟨1, 5⟩, ⟨2, 7⟩]) := by
  decide +kernel

/-- The example meets the hypotheses of `C51_program_partial`. -/
example : ∃ (P : Prog Int64) (o : Op Int64) (ins outs : Map Nat) (pm : Map Str), Prog.initWith (fun _ => (0, 0)) [] wrapped = .ok P ∧ P.st.heap 3 = some o ∧
    o.kind = .pipeline ins outs pm ∧ ¬ Beyond P.st.heap 3 3 ∧ (∀ k, k ∈ ins.keys ∨ k ∈ outs.keys → k.count 58 = 1) := by
  obtain ⟨P, hP⟩ : ∃ P, Prog.initWith (fun _ => (0, 0)) [] wrapped = .ok P := ⟨_, rfl⟩
  obtain ⟨o, ho, hk, houts⟩ : ∃ o, P.st.heap 3 = some o ∧ o.kind = .pipeline [(b!"a:i1", 2), (b!"j:i2", 1)] [(b!"j:o1", 1), (b!"j:o2", 1)]
      [(i1, b!"a:i1"), (i2, b!"j:i2"), (b!"j:o1", b!"o1"), (b!"j:o2", b!"o2")] ∧ o.core.outputs = [(o1, [⟨4, i1⟩])] := by
    cases hP
    exact ⟨_, rfl, rfl, rfl⟩
  obtain ⟨o', ho', hn⟩ : ∃ o, P.st.heap 4 = some o ∧ nexts o = [] := by
    cases hP
    exact ⟨_, rfl, rfl⟩
  refine ⟨P, o, _, _, _, hP, ho, hk, ?_, fun k hk => (List.forall_mem_append (p := fun k => List.count (58 : UInt8) k = 1)).2 ⟨?_, ?_⟩ k (List.mem_append.2 hk)⟩
  rotate_left
  · decide
  · decide
  rintro ⟨q, c, hc, hr⟩
  have hc' : c.target = 4 := by
    simp only [connsOf, ho, houts, Map.find?_cons] at hc
    split at hc
    · simp at hc
    · next cs h =>
      split at h
      · cases h
        rw [List.mem_singleton.1 hc]
      · cases h
  rw [hc'] at hr
  have : ∀ b, Reach P.st.heap 4 b → b = 4 := by
    intro b hb
    induction hb with
    | refl => rfl
    | step _ he ih =>
      obtain ⟨x, hx, hx'⟩ := he
      rw [ih, ho'] at hx
      cases hx
      rw [hn] at hx'
      cases hx'
  have := this 3 hr
  omega

/-! ## Colons in the names of inner operators -/

/-- A program that is a pipeline of an Identity operator with the given id. -/
def Spec.lone (id : Str) : Json Int64 :=
  .obj [(b!"connections", .arr []), (b!"entryOperator", .str b!"p"),
    (b!"operators", .arr [.obj [(b!"id", .str b!"p"), (b!"prog", .obj [(b!"connections", .arr []),
      (b!"operators", .arr [.obj [(b!"id", .str id), (b!"type", .str b!"Identity")]])]), (b!"type", .str b!"Pipeline")]])]

/-- What happens to a message for the pipeline and to the same message for the inner operator: whether it is handled, or the error. -/
def Spec.loneRun (id : Str) : Option (Option Err × Option Err) :=
  match Prog.initWith (fun _ => (0, 0)) [] (lone id) with
  | .error _ => none
  | .ok P => some (
    match P.receive 9 [(i1, [⟨1, 5⟩])] with | .ok _ _ => none | .err e _ => some e,
    match feed 9 0 i1 ⟨1, 5⟩ P.st with | .ok _ _ => none | .err e _ => some e)

/-- C51 is violated when an inner operator has a colon in its id: the program is created, the inner operator "x:y" handles a message on its port i1,
but the pipeline hands it the message on a port "y:i1", and the call ends with an error. Without the colon, both work. -/
theorem C51_colon_violated : loneRun b!"x:y" = some (some (.exc .badPort), none) ∧ loneRun b!"xy" = some (none, none) := by
  decide +kernel

/-- C34 is violated by the same program: the creation succeeds, i1 is a port of the program's entry, but the message for it ends with the error. -/
theorem C34_colon_violated : ∃ (P P' : Prog Int64) (a : Nat) (o : Op Int64), Prog.initWith (fun _ => (0, 0)) [] (lone b!"x:y") = .ok P ∧
    P.ops.find? P.entry = some a ∧ P.st.heap a = some o ∧ i1 ∈ o.core.dataIn.keys ∧ P.receive 9 [(i1, [⟨1, 5⟩])] = .err (.exc .badPort) P' :=
  ⟨_, _, _, _, rfl, rfl, rfl, by decide, rfl⟩

end Rtbot
