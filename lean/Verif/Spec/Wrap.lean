import Verif.Spec.Wiring

/-! # Specification vocabulary: wrapping operators in a pipeline -/

namespace Rtbot.Spec
variable {V : Type} [Num V]

/-- One message after the other, each for a port of some operator; the reports. -/
def feeds (fuel : Nat) : List (Nat × Str × Msg V) → M (St V) (List (ProgMsg V))
  | [] => pure []
  | (a, p, m) :: l => do
    let r ← feed fuel a p m
    let rs ← feeds fuel l
    pure (r :: rs)

/-- `b` is downstream of the operator at `a` by way of its connections. -/
def Beyond (h : Nat → Option (Op V)) (a b : Nat) : Prop := ∃ q c, c ∈ connsOf h a q ∧ Reach h c.target b

/-- The operators in `I` belong to the pipeline at `a`: it forwards its messages to operators in `I`, which hand messages only to each other and get
messages only from each other and the pipeline. -/
structure Encloses (h : Nat → Option (Op V)) (a : Nat) (I : Nat → Prop) : Prop where
  inputs : ∀ o ins outs pm k t, h a = some o → o.kind = .pipeline ins outs pm → ins.find? k = some t → I t
  closed : ∀ b c, I b → Edge h b c → I c
  entered : ∀ b c, I c → Edge h b c → I b ∨ b = a
  self : ¬ I a
  conns : ∀ q c, c ∈ connsOf h a q → ¬ I c.target

/-- The message for the pipeline's input number `n + 1` and the same message for the inner operator's port that the input stands for. -/
def ForInner (ins : Map Nat) (x : Nat × Msg V) (y : Nat × Str × Msg V) : Prop :=
  ∃ id, ins.keys[x.1]? = some (portName id y.2.1) ∧ ins.find? (portName id y.2.1) = some y.1 ∧ x.2 = y.2.2

/-- `executeData` of one operator after the other; the reports. -/
def execs (fuel : Nat) : List Nat → M (St V) (List (ProgMsg V))
  | [] => pure []
  | a :: l => do
    let r ← exec fuel false a
    let rs ← execs fuel l
    pure (r :: rs)

/-- What the calls on a pipeline mean for its inner operators: `Direct ins ks s as rs ks' s'` says that doing the calls `as` on the inner operators
directly leads from `s` to `s'` with the reports `rs`. A message for the pipeline's input number `n + 1` is handed to the port that the input stands for.
`executeData` executes the operators whose ports got messages since the last time, in the order of the names of the ports; these are
the names `ks`, afterwards `ks'`. `executeControl` means nothing. -/
inductive Direct (ins : Map Nat) : List Str → St V → List (Act V) → List (ProgMsg V) → List Str → St V → Prop
  | nil (ks : List Str) (s : St V) : Direct ins ks s [] [] ks s
  | recv {ks ks1 ks' : List Str} {s s1 s' : St V} {fuel n t : Nat} {id p q : Str} {m : Msg V} {as : List (Act V)} {rs : List (ProgMsg V)}
      (port : ins.keys[n]? = some (portName id p)) (target : ins.find? (portName id p) = some t) (name : q = iPort (n + 1) ∨ q = [] ∧ ins.length = 1)
      (note : ∀ k, k ∈ ks1 ↔ k = portName id p ∨ k ∈ ks) (sorted : ks1.Pairwise fun a b => strLt a b = true)
      (call : recvData fuel none t m p s = .ok () s1) (rest : Direct ins ks1 s1 as rs ks' s') :
      Direct ins ks s (.recvData q m :: as) rs ks' s'
  | exec {ks ks' : List Str} {s s1 s' : St V} {fuel : Nat} {ts : List Nat} {as : List (Act V)} {rs rs' : List (ProgMsg V)}
      (targets : List.Forall₂ (fun k t => ins.find? k = some t) ks ts) (call : execs fuel ts s = .ok rs s1) (rest : Direct ins [] s1 as rs' ks' s') :
      Direct ins ks s (.execData :: as) (rs ++ rs') ks' s'
  | ctrl {ks ks' : List Str} {s s' : St V} {as : List (Act V)} {rs : List (ProgMsg V)} (rest : Direct ins ks s as rs ks' s') :
      Direct ins ks s (.execCtrl :: as) rs ks' s'

end Rtbot.Spec
