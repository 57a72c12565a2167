import Verif.Lemmas.FactoryBuffer
import Verif.Props.Program
import Verif.Props.Snapshot

set_option linter.unusedSectionVars false

/-! # Properties of the registry of programs (C40 to C45) -/

namespace Rtbot
variable {V : Type} [Num V]
open Spec

/-! ## Examples -/

/-- Every text describes the running sum followed by an average; any text passes the schema check. -/
def Spec.sumEnv : Env Int64 := ⟨always sumDescription, fun _ => none, 9⟩

/-- Two programs used in turn. -/
def Spec.twoPrograms : List (Req Int64) :=
  [.createJson (fun _ => (0, 0)) b!"A" b!"{}", .createJson (fun _ => (0, 0)) b!"B" b!"{}", .add b!"A" i1 ⟨1, 5⟩, .add b!"B" i1 ⟨1, 7⟩,
   .processBuffer true b!"A", .processBuffer true b!"B", .delete b!"A", .add b!"A" i1 ⟨2, 5⟩, .processMap false b!"B" [(i1, [⟨2, 9⟩])]]

/-! ## C40 -/

/-- C40: the outcomes of the calls naming program `b` within any sequence of calls, on any registry, are the same as if only these calls had
been made. -/
theorem C40_isolated (env : Env V) (b : Str) (F : Factory V) (rs : List (Req V)) :
    outcomesOf env b F rs = outcomes env F (rs.filter fun r => Req.id r = b) :=
  outcomesOf_view env b rs (SameView.refl b F)

/-- C40, call by call: whatever calls naming other programs come before, a call naming `b` has the same outcome. -/
theorem C40_undisturbed (env : Env V) (F : Factory V) (rs : List (Req V)) (r : Req V) (h : ∀ x ∈ rs, Req.id x ≠ Req.id r) :
    outcome ((served env F rs).serve env r) = outcome (F.serve env r) := by
  have key : SameView (Req.id r) F (served env F rs) := by
    induction rs generalizing F with
    | nil => exact SameView.refl _ _
    | cons x rs ih =>
      exact (serve_other env F x (h x (by simp))).trans (ih _ fun y hy => h y (List.mem_cons_of_mem _ hy))
  exact (serve_agree env r key).out

example : outcomesOf sumEnv b!"B" Factory.empty twoPrograms =
    [.ok (.text []), .ok (.flag true), .ok (.report [(b!"in", [(o1, [⟨1, 7⟩])]), (b!"sum", [(o1, [⟨1, 7⟩])])]),
     .ok (.report [(b!"ma", [(o1, [⟨2, 11⟩])])])] := by
  decide +kernel

/-! ## C41 -/

/-- C41: creating a program under an id in use, in whatever way and with whatever result, leaves the registry as it was. -/
theorem C41_untouched (env : Env V) (F : Factory V) (P : Prog V) (r : Req V) (hc : Req.creates r = true)
    (h : F.programs.find? (Req.id r) = some P) : (F.serve env r).state = F := by
  have hh := has_of_find h
  have he : ∀ Q, F.programs.emplace (Req.id r) Q = F.programs := fun Q => by unfold Map.emplace; rw [if_pos hh]
  have hj : ∀ parse junk json, (F.createJson parse junk (Req.id r) json).state = F := by
    intro parse junk json
    unfold Factory.createJson
    split
    · rfl
    · rfl
    · rw [he]; rfl
  cases r <;> try (cases hc)
  case createBytes junk id bytes =>
    simp only [Factory.serve, state_as, Factory.createBytes]
    exact congrArg Res.state (if_pos hh)
  case createJson junk id json => simp only [Factory.serve, state_as]; exact hj ..
  case createChecked junk id json =>
    simp only [Factory.serve, state_as, Factory.createChecked]
    split
    · rfl
    · exact hj ..

/-- C41, the part on reporting that holds: creation from a snapshot under an id in use raises an error. Missing: creation from a description,
see `C41_violated_json`. -/
theorem C41_reported_partial (env : Env V) (F : Factory V) (P : Prog V) (junk : Junk V) (id : Str) (bytes : Bytes)
    (h : F.programs.find? id = some P) : outcome (F.serve env (.createBytes junk id bytes)) = .error (.exc .runtime) := by
  simp only [Factory.serve, Factory.createBytes]
  rw [if_pos (has_of_find h)]
  rfl

/-- C41 is violated by creation from a description: the answer is the same as on success, an empty text, in every registry. -/
theorem C41_violated_json (env : Env V) (junk : Junk V) (id json : Str) (P : Prog V) (hp : Prog.create env.parse junk json = .ok P)
    (F : Factory V) : outcome (F.serve env (.createJson junk id json)) = .ok (.text []) := by
  simp only [Factory.serve, Factory.createJson, hp]
  rfl

/-- The second creation of A goes unnoticed, and A keeps the message it has got. -/
example : outcomes sumEnv Factory.empty
    [.createJson (fun _ => (0, 0)) b!"A" b!"{}", .processMap false b!"A" [(i1, [⟨1, 5⟩])], .createJson (fun _ => (0, 0)) b!"A" b!"{}",
     .createBytes (fun _ => (0, 0)) b!"A" [], .processMap false b!"A" [(i1, [⟨2, 7⟩])]] =
    [.ok (.text []), .ok (.report []), .ok (.text []), .error (.exc .runtime), .ok (.report [(b!"ma", [(o1, [⟨2, 8⟩])])])] := by
  decide +kernel

/-- C41: what a rejected creation tells. A text that the schema check finds fault with is answered with what the check says, a text that is not JSON with the answer for that, any other
failure with its exception; in none of these cases is anything registered. -/
theorem C41_rejected (env : Env V) (F : Factory V) (junk : Junk V) (id json : Str) :
    (∀ t, env.valid json = some t → F.serve env (.createChecked junk id json) = .ok (.text t) F) ∧
    (env.valid json = none → Prog.create env.parse junk json = .error (.exc .jsonParse) → F.serve env (.createChecked junk id json) = .ok .notParsed F) ∧
    (∀ e, env.valid json = none → Prog.create env.parse junk json = .error e → e ≠ .exc .jsonParse → F.serve env (.createChecked junk id json) = .err e F) := by
  refine ⟨fun t h => ?_, fun h hp => ?_, fun e h hp he => ?_⟩
  · simp only [Factory.serve, Factory.createChecked, h]
    rfl
  · simp only [Factory.serve, Factory.createChecked, h, Factory.createJson, hp]
    rfl
  · simp only [Factory.serve, Factory.createChecked, h, Factory.createJson, hp]
    cases e with
    | exc x => cases x <;> first | rfl | exact absurd rfl he
    | _ => rfl

/-- A schema check that always finds fault: its words are the answer, and there is no program afterwards. -/
example : outcomes { sumEnv with valid := fun _ => some b!"no id" } Factory.empty [.createChecked (fun _ => (0, 0)) b!"A" b!"{}", .processMap false b!"A" [(i1, [⟨1, 5⟩])]] =
    [.ok (.text b!"no id"), .ok (.report [])] := by
  decide +kernel

/-! ## C42 -/

/-- A program with a message in its buffer is deleted; then a new one is created under the same id and given one message. -/
def Spec.reuse : List (Req Int64) :=
  [.createJson (fun _ => (0, 0)) b!"A" b!"{}", .add b!"A" i1 ⟨2, 7⟩, .processBuffer true b!"A"]

/-- C42 is violated: the messages buffered for the deleted program are given to the new one. -/
theorem C42_violated :
    outcomes sumEnv (served sumEnv Factory.empty
      [.createJson (fun _ => (0, 0)) b!"A" b!"{}", .add b!"A" i1 ⟨1, 5⟩, .delete b!"A"]) reuse ≠
    outcomes sumEnv Factory.empty reuse := by
  decide +kernel

/-- C42 when nothing is waiting for the program at its deletion: from then on all calls naming it have the outcomes they would have in a new
registry. Missing: programs with buffered messages, see `C42_violated`. -/
theorem C42_forgotten_partial (env : Env V) (id : Str) (hist : List (Req V)) (hn : ∀ port, waiting env id port Factory.empty [] hist = [])
    (rs : List (Req V)) :
    outcomesOf env id (served env Factory.empty (hist ++ [.delete id])) rs =
      outcomes env Factory.empty (rs.filter fun r => Req.id r = id) := by
  have hs : ∀ (l : List (Req V)) (F : Factory V) r, served env F (l ++ [r]) = ((served env F l).serve env r).state := by
    intro l
    induction l with
    | nil => intro F r; rfl
    | cons x l ih => intro F r; exact ih _ r
  refine outcomesOf_view env id rs ?_
  rw [hs]
  have hb : (served env Factory.empty hist).buffered id = [] := by
    have hg := served_good env hist buffersGood_empty id
    refine goodOp_ext hg goodOp_nil fun port => ?_
    rw [served_waiting]
    exact hn port
  refine ⟨?_, ?_⟩
  · exact ((Map.find?_erase _ _ _).trans (if_pos rfl)).symm
  · exact hb.symm

/-- Nothing waits after successful processing. -/
theorem waiting_processed (env : Env V) (id port : Str) (debug : Bool) (l : List (Req V)) : ∀ (F : Factory V) (ms : List (Msg V)),
    worked ((served env F l).serve env (.processBuffer debug id)) = true →
    waiting env id port F ms (l ++ [.processBuffer debug id]) = [] := by
  induction l with
  | nil => intro F ms h; exact if_pos ⟨rfl, h⟩
  | cons r l ih => intro F ms h; exact ih _ _ h

/-- A history with a program that has processed messages and has none waiting. -/
example : (∀ port, waiting sumEnv b!"A" port Factory.empty [] reuse = []) ∧
    outcomes sumEnv (served sumEnv Factory.empty (reuse ++ [.delete b!"A"])) reuse = outcomes sumEnv Factory.empty reuse := by
  refine ⟨fun port => ?_, by decide +kernel⟩
  have h : worked ((served sumEnv Factory.empty (reuse.take 2)).serve sumEnv (.processBuffer true b!"A")) = true := by decide +kernel
  exact waiting_processed sumEnv b!"A" port true (reuse.take 2) Factory.empty [] h

/-! ## C43 -/

/-- C43: after any sequence of calls the buffer of a program holds for every port exactly the messages accepted for it since the last successful
processing, in order; there are no entries without messages, and ports are in key order. -/
theorem C43_buffer (env : Env V) (rs : List (Req V)) (id : Str) :
    (∀ port, msgsOn port ((served env Factory.empty rs).buffered id) = waiting env id port Factory.empty [] rs) ∧
    ((served env Factory.empty rs).buffered id).keys.Pairwise (fun a b => strLt a b = true) ∧
    ∀ port ms, ((served env Factory.empty rs).buffered id).find? port = some ms → ms ≠ [] := by
  have hg := served_good env rs buffersGood_empty id
  exact ⟨fun port => served_waiting env id port rs Factory.empty, hg.1, hg.2⟩

/-- C43: processing gives the program exactly the waiting messages, in one call; nothing is done when there are none. On success the buffer is
empty afterwards; on an exception the messages are all still there. The program is left as the call leaves it. -/
theorem C43_processed (env : Env V) (rs : List (Req V)) (id : Str) (P : Prog V) (debug : Bool)
    (h : (served env Factory.empty rs).programs.find? id = some P) :
    ((∀ port, waiting env id port Factory.empty [] rs = []) →
      (served env Factory.empty rs).processBuffer debug env.fuel id = .ok [] (served env Factory.empty rs)) ∧
    ((∃ port, waiting env id port Factory.empty [] rs ≠ []) →
      ∃ x : OpMsg V, (∀ port, msgsOn port x = waiting env id port Factory.empty [] rs) ∧
        x.keys.Pairwise (fun a b => strLt a b = true) ∧ (∀ port ms, x.find? port = some ms → ms ≠ []) ∧
        match P.answer debug env.fuel x with
        | .ok r P' => ∃ F', (served env Factory.empty rs).processBuffer debug env.fuel id = .ok r F' ∧ F'.programs.find? id = some P' ∧
            F'.buffered id = []
        | .err e P' => ∃ F', (served env Factory.empty rs).processBuffer debug env.fuel id = .err e F' ∧ F'.programs.find? id = some P' ∧
            F'.buffered id = x) := by
  obtain ⟨h1, h2, h3⟩ := C43_buffer env rs id
  rw [processBuffer_eq h]
  refine ⟨fun hn => ?_, fun ⟨port, hp⟩ => ⟨_, h1, h2, h3, ?_⟩⟩
  · rw [if_pos (goodOp_ext ⟨h2, h3⟩ goodOp_nil fun port => by rw [h1, hn]; rfl)]
  · have hb : (served env Factory.empty rs).buffered id ≠ [] := fun hb => hp (by rw [← h1, hb]; rfl)
    rw [if_neg hb]
    cases P.answer debug env.fuel ((served env Factory.empty rs).buffered id) with
    | ok r P' => exact ⟨_, rfl, Map.find?_put_self _ _ _, buffered_erase _ _ _⟩
    | err e P' => exact ⟨_, rfl, Map.find?_put_self _ _ _, rfl⟩

/-- Messages for three ports, one of them not a port of the program: processing fails, the messages stay, and so does the failure. -/
def Spec.stuck : List (Req Int64) :=
  [.createJson (fun _ => (0, 0)) b!"A" b!"{}", .add b!"A" i1 ⟨1, 5⟩, .add b!"A" b!"x" ⟨1, 1⟩, .processBuffer false b!"A", .add b!"A" i1 ⟨2, 6⟩]

example : (served sumEnv Factory.empty stuck).buffered b!"A" = [(i1, [⟨1, 5⟩, ⟨2, 6⟩]), (b!"x", [⟨1, 1⟩])] := by decide +kernel

/-- A running sum as entry operator. -/
def Spec.bareSum : Json Int64 :=
  .obj [(b!"connections", .arr []), (b!"entryOperator", .str b!"sum"),
    (b!"operators", .arr [.obj [(b!"id", .str b!"sum"), (b!"type", .str b!"CumulativeSum")]]), (b!"output", .obj [])]

/-- Every text describes that program. -/
def Spec.bareEnv : Env Int64 := ⟨always bareSum, fun _ => none, 9⟩

/-- A consequence of keeping the messages: those given to the program before the exception are given to it again at the next attempt. Here the
message (1, 5) is added twice (an Input as entry operator would have dropped it the second time). -/
theorem C43_again_after_failure :
    outcomes bareEnv (served bareEnv Factory.empty stuck) [.processBuffer false b!"A", .processMap true b!"A" [(i1, [⟨3, 0⟩])]] =
    [.error (.exc .badPort), .ok (.report [(b!"sum", [(o1, [⟨3, 16⟩])])])] := by
  decide +kernel

/-! ## C44 -/

/-- The calls of `receive` and of `receiveDebug` side by side. -/
theorem singly_debug (fuel : Nat) (l : List (UInt64 × V × Str)) : ∀ (P : Prog V), HeapWF P.st.heap → PlainFilter P.filter →
    match singly true fuel l P with
    | .ok ds P' => ∃ rs, singly false fuel l P = .ok rs P' ∧
        ∀ id q, (Passes P.filter id q → rs.flatMap (fun r => listed r id q) = ds.flatMap (fun r => listed r id q)) ∧
          (¬ Passes P.filter id q → rs.flatMap (fun r => listed r id q) = [])
    | .err e P' => singly false fuel l P = .err e P' := by
  induction l with
  | nil => intro P _ _; exact ⟨[], rfl, fun _ _ => ⟨fun _ => rfl, fun _ => rfl⟩⟩
  | cons e l ih =>
    intro P hw hf
    obtain ⟨t, v, p⟩ := e
    have hst := receiveDebug_steps (S := Any) (fuel := fuel) (msgs := [(p, [⟨t, v⟩])]) (ctx_any hw) fun _ _ => trivial
    have hfr := (receiveDebug_frame (fuel := fuel) (P := P) (msgs := [(p, [⟨t, v⟩])])).2.2.2
    rw [singly, singly, Prog.answer, Prog.answer, if_pos rfl, if_neg (by simp)]
    cases hr : P.receiveDebug fuel [(p, [⟨t, v⟩])] with
    | err e P' => rw [receive_err hr]
    | ok r P' =>
      rw [hr] at hst hfr
      obtain ⟨r', h1, _, h3⟩ := receive_listed hw hf hr
      rw [h1]
      have hfr : P'.filter = P.filter := hfr
      have := ih P' (hst.shape.wf hw) (by rw [hfr]; exact hf)
      dsimp only
      cases ho : singly true fuel l P' with
      | err e P'' =>
        rw [ho] at this
        dsimp only at this ⊢
        rw [this]
      | ok ds P'' =>
        rw [ho] at this
        obtain ⟨rs, g1, g2⟩ := this
        dsimp only
        rw [g1]
        refine ⟨_, rfl, fun id q => ⟨fun hp => ?_, fun hp => ?_⟩⟩
        · rw [List.flatMap_cons, List.flatMap_cons, (h3 id q).1 hp, (g2 id q).1 (by rw [hfr]; exact hp)]
        · rw [List.flatMap_cons, (h3 id q).2 hp, (g2 id q).2 (by rw [hfr]; exact hp)]
          rfl

/-- One call with all messages and one call per message, for both kinds of calls. -/
theorem answer_singly {debug : Bool} {fuel : Nat} {msgs : OpMsg V} (hu : unrolled msgs ≠ []) (P : Prog V) (hw : HeapWF P.st.heap)
    (hf : PlainFilter P.filter) :
    match singly debug fuel (unrolled msgs) P with
    | .ok rs P' => ∃ r, P.answer debug fuel msgs = .ok r P' ∧ ∀ id q, listed r id q = rs.flatMap fun x => listed x id q
    | .err e P' => P.answer debug fuel msgs = .err e P' := by
  have h1 := receiveDebug_singly (fuel := fuel) hu P hw
  cases debug with
  | true => exact h1
  | false =>
    have h2 := singly_debug fuel (unrolled msgs) P hw hf
    rw [Prog.answer, if_neg (by simp)]
    cases hd : singly true fuel (unrolled msgs) P with
    | err e P' =>
      rw [hd] at h1 h2
      dsimp only at h1 h2
      rw [h2]
      exact receive_err h1
    | ok ds P' =>
      rw [hd] at h1 h2
      obtain ⟨r, g1, g2⟩ := h1
      obtain ⟨rs, k1, k2⟩ := h2
      obtain ⟨r', m1, _, m3⟩ := receive_listed hw hf g1
      rw [k1]
      refine ⟨r', m1, fun id q => ?_⟩
      by_cases hp : Passes P.filter id q
      · rw [(m3 id q).1 hp, (k2 id q).1 hp, g2]
      · rw [(m3 id q).2 hp, (k2 id q).2 hp]

/-- C44, what holds for every batch: with an empty buffer, processing a batch has the effect of giving the program its messages one at a time, but
sorted by port (in the order of the names as byte strings), keeping the order within each port. The program ends in the same state, fails with the
same error if it fails, and the report lists for every operator and port what the single reports list, in order. -/
theorem C44_by_port (debug : Bool) (fuel : Nat) (F : Factory V) (id : Str) (P : Prog V) (ts : List UInt64) (vs : List V) (ps : List Str)
    (h : F.programs.find? id = some P) (hb : F.buffered id = []) (hw : HeapWF P.st.heap) (hf : PlainFilter P.filter)
    (h1 : ts.length = vs.length) (h2 : vs.length = ps.length) (l : List (UInt64 × V × Str)) (hl : PortOrder l)
    (hs : SamePerPort l (ts.zip (vs.zip ps))) :
    match singly debug fuel l P with
    | .ok rs P' => ∃ r F', F.batch debug fuel id ts vs ps = .ok r F' ∧ F'.programs.find? id = some P' ∧
        ∀ op q, listed r op q = rs.flatMap fun x => listed x op q
    | .err e P' => ∃ F', F.batch debug fuel id ts vs ps = .err e F' ∧ F'.programs.find? id = some P' := by
  obtain ⟨F1, g1, g2, g3, _⟩ := addAll_has (ts.zip (vs.zip ps)) F (has_of_find h)
  have hF1 : F1.programs.find? id = some P := by rw [g2]; exact h
  rw [hb] at g3
  have hgood : GoodOp (F1.buffered id) := by rw [g3]; exact goodOp_queue _ _ goodOp_nil
  have hun : unrolled (F1.buffered id) = l := by
    refine unrolled_unique hgood.1 hl fun q => ?_
    rw [g3, msgsOn_queue, hs q]
    rfl
  have hbatch : F.batch debug fuel id ts vs ps = F1.processBuffer debug fuel id := by
    unfold Factory.batch
    rw [addBatch_eq h1 h2, g1]
  rw [hbatch, processBuffer_eq hF1]
  by_cases he : F1.buffered id = []
  · rw [if_pos he]
    rw [he] at hun
    subst hun
    exact ⟨_, _, rfl, hF1, fun _ _ => rfl⟩
  · rw [if_neg he]
    have hne : unrolled (F1.buffered id) ≠ [] := by
      intro hn
      obtain ⟨q, hq⟩ := goodOp_ne_nil hgood he
      have := unrolled_filter q _ hgood.1
      rw [hn] at this
      exact hq (List.map_eq_nil_iff.1 this.symm)
    have := answer_singly (debug := debug) (fuel := fuel) hne P hw hf
    rw [hun] at this
    cases ho : singly debug fuel l P with
    | err e P' =>
      rw [ho] at this
      dsimp only at this ⊢
      rw [this]
      exact ⟨_, rfl, Map.find?_put_self _ _ _⟩
    | ok rs P' =>
      rw [ho] at this
      obtain ⟨r, k1, k2⟩ := this
      dsimp only
      rw [k1]
      exact ⟨r, _, rfl, Map.find?_put_self _ _ _, k2⟩

/-- C44 for batches whose ports are in order, e.g. all the same: the batch is equivalent to its messages one at a time. Missing: other batches, see
`C44_violated` and `C44_by_port`. -/
theorem C44_sequential_partial (debug : Bool) (fuel : Nat) (F : Factory V) (id : Str) (P : Prog V) (ts : List UInt64) (vs : List V) (ps : List Str)
    (h : F.programs.find? id = some P) (hb : F.buffered id = []) (hw : HeapWF P.st.heap) (hf : PlainFilter P.filter)
    (h1 : ts.length = vs.length) (h2 : vs.length = ps.length) (hl : PortOrder (ts.zip (vs.zip ps))) :
    match singly debug fuel (ts.zip (vs.zip ps)) P with
    | .ok rs P' => ∃ r F', F.batch debug fuel id ts vs ps = .ok r F' ∧ F'.programs.find? id = some P' ∧
        ∀ op q, listed r op q = rs.flatMap fun x => listed x op q
    | .err e P' => ∃ F', F.batch debug fuel id ts vs ps = .err e F' ∧ F'.programs.find? id = some P' :=
  C44_by_port debug fuel F id P ts vs ps h hb hw hf h1 h2 _ hl fun _ => rfl

/-- The hypotheses are met by the running sum and a batch of two messages. -/
example : ∃ P, sumProgram = .ok P ∧ HeapWF P.st.heap ∧ PlainFilter P.filter ∧
    PortOrder (([1, 2] : List UInt64).zip (([5, 7] : List Int64).zip [i1, i1])) ∧
    (worked (singly true 9 (([1, 2] : List UInt64).zip (([5, 7] : List Int64).zip [i1, i1])) P) = true) := by
  obtain ⟨P, hP⟩ : ∃ P, sumProgram = .ok P := ⟨_, rfl⟩
  have hi : Prog.initWith (fun _ => (0, 0)) b!"{}" sumDescription = .ok P := hP
  obtain ⟨m, hm, hst⟩ := initWith_making sumDescription_flat hi
  have hf : P.filter = [(b!"ma", [o1])] := by cases hP; rfl
  refine ⟨P, hP, fun a o ho => ?_, ?_, ?_, ?_⟩
  · rw [hst] at ho
    exact (hm.built a o ho).start.wf
  · rw [hf]
    refine ⟨by simp [Map.keys], fun id ps h => ?_⟩
    rw [Map.find?_cons] at h
    split at h
    · cases h; simp
    · cases h
  · simp [PortOrder, strLt_irrefl]
  · cases hP
    decide +kernel

/-- Two inputs that are added up one after the other. -/
def Spec.twoInputs : Json Int64 :=
  .obj [(b!"connections", .arr [.obj [(b!"from", .str b!"in"), (b!"fromPort", .str b!"o1"), (b!"to", .str b!"sum")],
      .obj [(b!"from", .str b!"in"), (b!"fromPort", .str b!"o2"), (b!"to", .str b!"sum")]]),
    (b!"entryOperator", .str b!"in"),
    (b!"operators", .arr [.obj [(b!"id", .str b!"in"), (b!"numPorts", .uint 2), (b!"type", .str b!"Input")],
      .obj [(b!"id", .str b!"sum"), (b!"type", .str b!"CumulativeSum")]]),
    (b!"output", .obj [(b!"sum", .arr [.str b!"o1"])])]

/-- The program of that description in a registry. -/
def Spec.twoInputsEnv : Env Int64 := ⟨always twoInputs, fun _ => none, 9⟩

/-- C44 is violated for batches whose ports are not in order: the messages (1, 5) for i2 and (2, 7) for i1 given one at a time make the sum answer
(1, 5) and (2, 12), the batch makes it answer (2, 7) and (1, 12). -/
theorem C44_violated :
    outcomes twoInputsEnv (served twoInputsEnv Factory.empty [.createJson (fun _ => (0, 0)) b!"A" b!"{}"])
      [.batch false b!"A" [1, 2] [5, 7] [b!"i2", b!"i1"]] =
      [.ok (.report [(b!"sum", [(o1, [⟨2, 7⟩, ⟨1, 12⟩])])])] ∧
    outcomes twoInputsEnv (served twoInputsEnv Factory.empty [.createJson (fun _ => (0, 0)) b!"A" b!"{}"])
      [.processMap false b!"A" [(b!"i2", [⟨1, 5⟩])], .processMap false b!"A" [(b!"i1", [⟨2, 7⟩])]] =
      [.ok (.report [(b!"sum", [(o1, [⟨1, 5⟩])])]), .ok (.report [(b!"sum", [(o1, [⟨2, 12⟩])])])] := by
  decide +kernel

/-! ## C45 -/

/-- C45: a call naming an unknown program, other than one creating it, changes nothing and raises an error; only `processMessageMap` answers with an
empty report and `deleteProgram` with `false`. -/
theorem C45_unknown (env : Env V) (F : Factory V) (r : Req V) (hc : Req.creates r = false) (h : F.programs.find? (Req.id r) = none) :
    (F.serve env r).state = F ∧
    outcome (F.serve env r) = unknownAnswer r := by
  have hh : F.programs.has (Req.id r) = false := by unfold Map.has; rw [h]; rfl
  cases r <;> simp only [Req.creates, reduceCtorEq] at hc
  all_goals (simp only [Req.id] at h hh)
  all_goals (simp only [Factory.serve, state_as, outcome_as])
  case serialize id => simp only [Factory.serialize, h]; exact ⟨rfl, rfl⟩
  case delete id =>
    simp only [Factory.delete, hh, Res.state]
    exact ⟨by rw [erase_of_not_has hh], rfl⟩
  case add id port m => simp only [Factory.add, hh]; exact ⟨rfl, rfl⟩
  case processBuffer d id => simp only [Factory.processBuffer, hh]; exact ⟨rfl, rfl⟩
  case processMap d id msgs => simp only [Factory.processMap, h]; exact ⟨rfl, rfl⟩
  case batch d id ts vs ps =>
    unfold Factory.batch
    by_cases hl : ts.length ≠ vs.length ∨ ts.length ≠ ps.length ∨ vs.length ≠ ps.length
    · rw [show F.addBatch id ts vs ps = .err (.exc .runtime) F from if_pos hl]
      exact ⟨rfl, rfl⟩
    · rw [show F.addBatch id ts vs ps = F.addAll id (ts.zip (vs.zip ps)) from if_neg hl]
      cases hz : ts.zip (vs.zip ps) with
      | nil => simp only [Factory.addAll, Factory.processBuffer, hh]; exact ⟨rfl, rfl⟩
      | cons e l => rw [addAll_not hh _ (by simp)]; exact ⟨rfl, rfl⟩
  case entryId id => simp only [Factory.entryId, h]; exact ⟨rfl, rfl⟩
  case entryPorts id => simp only [Factory.entryPorts, h]; exact ⟨rfl, rfl⟩
  case outputFilter id => simp only [Factory.outputFilter, h]; exact ⟨rfl, rfl⟩

/-- A registry with another program, and after a deletion. -/
example : outcomes sumEnv (served sumEnv Factory.empty twoPrograms)
    [.serialize b!"A", .add b!"A" i1 ⟨1, 1⟩, .processBuffer false b!"A", .processMap false b!"A" [(i1, [⟨1, 1⟩])], .batch true b!"A" [] [] [],
     .delete b!"A", .entryPorts b!"A", .entryPorts b!"B", .entryId b!"B", .delete b!"B"] =
    [.error (.exc .runtime), .error (.exc .runtime), .error (.exc .runtime), .ok (.report []), .error (.exc .runtime), .ok (.flag false),
     .error (.exc .runtime), .ok (.ports [i1]), .ok (.text b!"in"), .ok (.flag true)] := by
  decide +kernel

end Rtbot
