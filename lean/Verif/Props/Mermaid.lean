import Verif.Lemmas.Mermaid
import Verif.Props.PyProgram

/-! # C101: the diagram of a program -/

namespace Rtbot
open Spec
variable {V : Type}

/-- C101: the diagram of a program all of whose connections name their ports has one arrow for each connection, in their order, between the operators that it joins, with the ports on it,
and every operator on an arrow is labelled with its type and its parameters.

Missing: connections without ports, operators without connections. For them the statement is false. -/
theorem C101_text_partial (py : PyText V) {p : PyProgram V} {ops cs : List (Json V)} (hp : WellBuilt p ops cs) {es : List Arrow} (he : List.Forall₂ Drawn cs es) :
    ∃ label, p.toMermaidJs py = .ok (diagram label es) ∧ ∀ x ∈ ops, ∀ id, HasId x id → Labels py x (label id) := by
  refine ⟨Mermaid.labelOf py ops, ?_, fun x hx id hid => ?_⟩
  · unfold PyProgram.toMermaidJs
    rw [show pyList p.connections = .ok cs by rw [hp.wired]; rfl]
    show (mermaidLines py p.operators cs >>= fun l => _) = _
    rw [Mermaid.lines_ok py hp (fun d hd => hd) he]
    rfl
  · obtain ⟨t, ht⟩ := hp.valid x hx
    obtain ⟨l, hl, hl'⟩ := Mermaid.label_ok py ht.type
    rw [Mermaid.labelOf_eq py hp.distinct hx hid hl]
    exact hl'

/-- C101: the arrows can be read off the diagram: with the same labels, different lists of arrows are different texts, if ids have no bracket, output ports no colon and input ports no bar. -/
theorem C101_readable {label : Str → Str} {es es' : List Arrow} (h : ∀ e ∈ es, PlainArrow e) (h' : ∀ e ∈ es', PlainArrow e) (heq : diagram label es = diagram label es') : es = es' :=
  Mermaid.lines_inj h h' (List.append_cancel_left heq)

namespace Mermaid
variable [Num V]

theorem edited_drawn (l : List (PyEdit V)) : ∀ {p : PyProgram V} {ops cs : List (Json V)} {es : List Arrow}, WellBuilt p ops cs → List.Forall₂ Drawn cs es →
    ∃ ops' cs' es', WellBuilt (edited p l) ops' cs' ∧ List.Forall₂ Drawn cs' es' := by
  induction l with
  | nil => intro p ops cs es hp he; exact ⟨ops, cs, es, hp, he⟩
  | cons e l ih =>
    intro p ops cs es hp he
    cases e with
    | op x =>
      obtain ⟨ops', cs', h1, h2⟩ := C70_edited [.op x] hp
      have hc : cs' = [] := by
        unfold edited at h2
        cases ha : p.addOperator x with
        | error e =>
          rw [ha] at h2
          have := congrArg PyProgram.connections (show p = _ from h2)
          rw [hp.wired] at this
          simpa using this
        | ok q =>
          rw [ha] at h2
          obtain ⟨_, _, rfl⟩ := (C70_operator hp x).1 ha
          have := congrArg PyProgram.connections (show { p with operators := .arr (ops ++ [x]) } = _ from h2)
          rw [show ({ p with operators := .arr (ops ++ [x]) } : PyProgram V).connections = p.connections from rfl, hp.wired] at this
          simpa using this
      subst hc
      rw [List.append_nil] at h1
      exact ih (p := edited p [.op x]) h1 he
    | conn f t o i =>
      unfold edited
      cases ha : p.addConnection f t o i with
      | error e => exact ih hp he
      | ok q =>
        obtain ⟨h1, h2, c, h3, h4, h5, h6, h7, _, rfl⟩ := (C70_connection hp f t o i).1 ha
        refine ih (ops := ops) (cs := cs ++ [c]) (es := es ++ [⟨f, t, o, i⟩]) ⟨hp.listed, rfl, hp.valid, hp.distinct, fun d hd => ?_⟩ (List.rel_append he (.cons ⟨h4, h5, h6, h7⟩ .nil))
        rcases List.mem_append.1 hd with hd | hd
        · exact hp.joined d hd
        · rw [List.mem_singleton.1 hd]
          exact ⟨h3, f, t, h4, h5, h1, h2⟩

end Mermaid

/-- C101: drawing a program that was put together with `addOperator` and `addConnection` never fails, whichever calls failed before. -/
theorem C101_drawn [Num V] (py : PyText V) {id : Str} {args : Map (Json V)} {p : PyProgram V} (h : PyProgram.new id args = .ok p) (ho : args.find? b!"operators" = none)
    (hc : args.find? b!"connections" = none) (l : List (PyEdit V)) : ∃ label es, (edited p l).toMermaidJs py = .ok (diagram label es) := by
  obtain ⟨ops, cs, es, h1, h2⟩ := Mermaid.edited_drawn l (C70_new h ho hc) (es := []) .nil
  obtain ⟨label, h3, _⟩ := C101_text_partial py h1 h2
  exact ⟨label, es, h3⟩

namespace Mermaid

/-- Dictionaries in the order of their keys, and other values written as a question mark. -/
def plainText : PyText V := ⟨fun _ => b!"?", Map.keys, fun _ => .refl _⟩

/-- Two operators and the given connections. -/
def sketch (cs : List (Json V)) : PyProgram V :=
  { id := b!"1a2b", operators := .arr [pyCount b!"a", .obj [(b!"id", .str b!"b"), (b!"type", .str b!"Scale"), (b!"value", .uint 2)]], connections := .arr cs,
    entryOperator := .str b!"a", title := .null, description := .null, apiVersion := .str b!"v1", date := .str b!"2000-01-01", author := .null, license := .null }

end Mermaid

open Mermaid in
/-- A diagram. -/
example : (sketch (V := ℚ) [pyConnection b!"a" b!"b" b!"o1" b!"i1"]).toMermaidJs plainText = .ok b!"flowchart LR;a(\"Count\") --> |o1:i1| b(\"Scale(?)\");\n" := by rfl

/- Of two operators with the same id, which no valid program has, the first is drawn. -/
example : pyNext (V := ℚ) (.str b!"a") [.obj [(b!"id", .str b!"a"), (b!"type", .str b!"Count")], .obj [(b!"id", .str b!"a"), (b!"type", .str b!"Add")]] =
    .ok (some (.obj [(b!"id", .str b!"a"), (b!"type", .str b!"Count")])) := by rfl

/-- C101 is violated: operators without connections are not drawn, whatever they are. -/
theorem C101_violated_alone (py : PyText V) {p : PyProgram V} {ops : List (Json V)} (hp : WellBuilt p ops []) : p.toMermaidJs py = .ok b!"flowchart LR;" := by
  obtain ⟨label, h, _⟩ := C101_text_partial py hp (es := []) .nil
  exact h

open Mermaid in
/- Two operators that are not connected. -/
example : (sketch (V := ℚ) []).validate = true ∧ (sketch (V := ℚ) []).toMermaidJs plainText = .ok b!"flowchart LR;" := ⟨by decide +kernel, by rfl⟩

open Mermaid in
/-- C101 is violated: the ports of a connection are optional (the defaults are "o1" and "i1"), but drawing a valid program whose connection leaves them out fails. -/
theorem C101_violated_ports : (sketch (V := ℚ) [.obj [(b!"from", .str b!"a"), (b!"to", .str b!"b")]]).validate = true ∧
    (sketch (V := ℚ) [.obj [(b!"from", .str b!"a"), (b!"to", .str b!"b")]]).toMermaidJs plainText = .error (.exc .runtime) := ⟨by decide +kernel, by rfl⟩

open Mermaid in
/-- C101 is violated: without the conditions on the names two different programs can have the same diagram. -/
theorem C101_violated_names :
    (sketch (V := ℚ) [pyConnection b!"a" b!"b" b!"o1:x" b!"i1"]).toMermaidJs plainText = .ok b!"flowchart LR;a(\"Count\") --> |o1:x:i1| b(\"Scale(?)\");\n" ∧
    (sketch (V := ℚ) [pyConnection b!"a" b!"b" b!"o1" b!"x:i1"]).toMermaidJs plainText = .ok b!"flowchart LR;a(\"Count\") --> |o1:x:i1| b(\"Scale(?)\");\n" ∧
    (pyConnection b!"a" b!"b" b!"o1:x" b!"i1" : Json ℚ) ≠ pyConnection b!"a" b!"b" b!"o1" b!"x:i1" := by
  refine ⟨by rfl, by rfl, fun h => ?_⟩
  unfold pyConnection at h
  simp at h

end Rtbot
