import Verif.Spec.Create
import Verif.Spec.Graph

/-! # Specification vocabulary: the connections a description asks for -/

namespace Rtbot.Spec
variable {V : Type}

/-- The optional member names a port; when it is absent the name is empty. -/
def NamesPort (j : Json V) (k : Str) (p : Str) : Prop := Member j k (.str p) ∨ (∀ x, ¬ Member j k x) ∧ p = []

/-- The output port a connection means: the one of that name, or the only one when there is no name. -/
def MeansOutput (c : Core V) (name p : Str) : Prop := p ∈ c.outIds ∧ p ≠ [] ∧ (name = p ∨ name = [] ∧ c.outIds = [p])

/-- The input port a connection means: the one of that name, or the only one, which must be a data port, when there is no name. -/
def MeansInput (c : Core V) (name q : Str) : Prop :=
  (q ∈ c.dataIn.keys ∨ q ∈ c.ctrlIn.keys) ∧ q ≠ [] ∧ (name = q ∨ name = [] ∧ c.dataIn.keys = [q] ∧ c.ctrlIn = [])

/-- A connection: from an output port of the operator at an address. -/
structure Cable where
  src : Nat
  port : Str
  conn : Conn

/-- The description asks for this connection. -/
structure Asks (ops : Map Nat) (h : Nat → Option (Op V)) (j : Json V) (w : Cable) : Prop where
  /-- "from" names the operator it comes from -/
  src : ∃ id, Member j b!"from" (.str id) ∧ ops.find? id = some w.src
  /-- "to" names the operator it leads to -/
  dst : ∃ id, Member j b!"to" (.str id) ∧ ops.find? id = some w.conn.target
  /-- "fromPort" names the output port -/
  out : ∃ o p, h w.src = some o ∧ NamesPort j b!"fromPort" p ∧ MeansOutput o.core p w.port
  /-- "toPort" names the input port -/
  inp : ∃ o p, h w.conn.target = some o ∧ NamesPort j b!"toPort" p ∧ MeansInput o.core p w.conn.port

/-- The connections from one port, in order. -/
def cablesFrom (ws : List Cable) (a : Nat) (p : Str) : List Conn :=
  ws.filterMap fun w => if w.src = a ∧ w.port = p then some w.conn else none

/-- A port of an inner operator, written "id:port". -/
def portName (id p : Str) : Str := id ++ 58 :: p

/-- The data input `p` of the operator `id` at address `a` is not the end of any connection between the operators in the table. -/
def FreeInput (ops : Map Nat) (h : Nat → Option (Op V)) (id : Str) (a : Nat) (p : Str) : Prop :=
  ops.find? id = some a ∧ (∃ o, h a = some o ∧ p ∈ o.core.dataIn.keys) ∧
    ∀ id' b q, ops.find? id' = some b → ⟨a, p⟩ ∉ connsOf h b q

/-- The output `p` of the operator `id` at address `a` has no connection. -/
def FreeOutput (ops : Map Nat) (h : Nat → Option (Op V)) (id : Str) (a : Nat) (p : Str) : Prop :=
  ops.find? id = some a ∧ (∃ o, h a = some o ∧ p ∈ o.core.outIds) ∧ connsOf h a p = []

/-- The operator is a pipeline with the inner operators `ops`, whose ports correspond to the free ports of the inner operators. -/
structure Exposes (ops : Map Nat) (h : Nat → Option (Op V)) (o : Op V) (ins outs : Map Nat) (pm : Map Str) : Prop where
  kind : o.kind = .pipeline ins outs pm
  /-- the inputs are the free inputs, by name, -/
  inputs : ∀ k a, ins.find? k = some a ↔ ∃ id p, k = portName id p ∧ FreeInput ops h id a p
  /-- the outputs are the free outputs, -/
  outputs : ∀ k a, outs.find? k = some a ↔ ∃ id p, k = portName id p ∧ FreeOutput ops h id a p
  /-- both in ascending order; -/
  insSorted : ins.keys.Pairwise fun a b => strLt a b = true
  outsSorted : outs.keys.Pairwise fun a b => strLt a b = true
  /-- the data inputs are "i1", "i2", …, one for each, -/
  dataIn : ∀ p, p ∈ o.core.dataIn.keys ↔ ∃ n, n < ins.keys.length ∧ p = iPort (n + 1)
  ctrlIn : o.core.ctrlIn = []
  /-- the outputs are "o1", "o2", …, one for each, -/
  outIds : ∀ p, p ∈ o.core.outIds ↔ ∃ n, n < outs.keys.length ∧ p = oPort (n + 1)
  /-- and they correspond in order. -/
  mapIn : ∀ n k, ins.keys[n]? = some k → pm.find? (iPort (n + 1)) = some k
  mapOut : ∀ n k, outs.keys[n]? = some k → pm.find? k = some (oPort (n + 1))
  /-- There are no other names. -/
  mapOnly : ∀ q k, pm.find? q = some k → (∃ n, q = iPort (n + 1) ∧ ins.keys[n]? = some k) ∨ ∃ n, outs.keys[n]? = some q ∧ k = oPort (n + 1)

end Rtbot.Spec
