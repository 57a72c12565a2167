import Verif.Lemmas.Copy
import Verif.Lemmas.Wiring
import Verif.Lemmas.Pipeline

set_option linter.unusedSectionVars false

/-! # A program created from a description with more operators in another order contains a copy of the smaller one -/

namespace Rtbot
namespace Copy
variable {V : Type} [Num V]
open Spec

variable {φ : Nat → Nat} {S : Nat → Prop}

/-! ## Connecting -/

theorem put_moved (outs : Map (List Conn)) (k : Str) (cs : List Conn) :
    moveConns φ (outs.put k cs) = (moveConns φ outs).put k (cs.map fun c => ⟨φ c.target, c.port⟩) := by
  induction outs with
  | nil => rfl
  | cons e outs ih =>
    obtain ⟨k', cs'⟩ := e
    have : moveConns φ ((k', cs') :: outs) = (k', cs'.map fun c => ⟨φ c.target, c.port⟩) :: moveConns φ outs := rfl
    rw [this, Map.put, Map.put]
    split
    · rfl
    · split
      · rfl
      · rw [← ih]; rfl

theorem emplace_moved (outs : Map (List Conn)) (k : Str) (cs : List Conn) :
    moveConns φ (outs.emplace k cs) = (moveConns φ outs).emplace k (cs.map fun c => ⟨φ c.target, c.port⟩) := by
  unfold Map.emplace Map.has
  rw [find_moveConns]
  cases outs.find? k with
  | none => exact put_moved _ _ _
  | some v => rfl

theorem connect_moved {c child c' : Core V} {t : Nat} {p q : Str} {w : Map (List Conn)} (h : c.connect child t p q = .ok (some c')) :
    ({ c with outputs := moveConns φ c.outputs } : Core V).connect { child with outputs := w } (φ t) p q = .ok (some { c' with outputs := moveConns φ c'.outputs }) := by
  unfold Core.connect at h ⊢
  dsimp only at h ⊢
  have e1 : ({ child with outputs := w } : Core V).allInputs = child.allInputs := rfl
  have e2 : ∀ p, ({ child with outputs := w } : Core V).isData p = child.isData p := fun _ => rfl
  simp only [e1, e2]
  generalize (if p = [] then (match c.outIds with | [p] => p | _ => p) else p) = p' at h ⊢
  generalize (if q = [] then (match child.allInputs with | [p] => if child.isData p then p else q | _ => q) else q) = q' at h ⊢
  split at h
  · cases h
  rename_i h1
  split at h
  · cases h
  rename_i h2
  split at h
  · rename_i h3
    rw [if_neg h1, if_neg h2, if_pos h3, find_moveConns]
    cases hf : c.outputs.find? p' with
    | none =>
      rw [hf] at h
      cases h
      dsimp only [Option.map_none]
      rw [emplace_moved]
      rfl
    | some v =>
      rw [hf] at h
      cases h
      dsimp only [Option.map_some]
      rw [put_moved, List.map_append]
      rfl
  · cases h

/-- While the operators are being connected. -/
structure Along (φ : Nat → Nat) (ops ops' : Map Nat) (m m' : Mem V) : Prop where
  one : Making ops m
  other : Making ops' m'
  names : ∀ k a, ops.find? k = some a → ops'.find? k = some (φ a)
  sub : Contains φ (fun a => ∃ o, m.heap a = some o) m.heap m'.heap

theorem Along.both {ops ops' : Map Nat} {m n m' n' : Mem V} (h : Along φ ops ops' m m') {x : ConnDesc} (h1 : makeConn ops x m = .ok n) (h2 : makeConn ops' x m' = .ok n') :
    Along φ ops ops' n n' := by
  have hm := makeConn_making h.one h1
  have hm' := makeConn_making h.other h2
  refine ⟨hm, hm', h.names, ?_⟩
  obtain ⟨a, b, o, t, c, ga, gb, ha, hb, hc, rfl⟩ := makeConn_ok (fun a o ho => (h.one.built a o ho).simple) h1
  obtain ⟨a', b', o', t', c', ga', gb', ha', hb', hc', rfl⟩ := makeConn_ok (fun a o ho => (h.other.built a o ho).simple) h2
  have ea := h.names _ _ ga
  have eb := h.names _ _ gb
  rw [ga'] at ea
  rw [gb'] at eb
  cases ea
  cases eb
  obtain ⟨p, hp1, hp2⟩ := h.sub.ops a ⟨o, ha⟩
  rw [ha] at hp1
  cases hp1
  rw [ha'] at hp2
  cases hp2
  obtain ⟨p, hp1, hp2⟩ := h.sub.ops b ⟨t, hb⟩
  rw [hb] at hp1
  cases hp1
  rw [hb'] at hp2
  cases hp2
  have hcc := connect_moved (φ := φ) (w := moveConns φ t.core.outputs) hc
  have hcc' : Core.connect (copied φ o).core (copied φ t).core (φ b) x.fromPort x.toPort = _ := hcc
  rw [hc'] at hcc'
  cases hcc'
  have hS : ∀ y, (∃ p, (if y = a then some ({ o with core := c } : Op V) else m.heap y) = some p) → ∃ p, m.heap y = some p := by
    rintro y ⟨p, hp⟩
    split at hp
    · rename_i hy; subst hy; exact ⟨o, ha⟩
    · exact ⟨p, hp⟩
  refine ⟨fun y z hy hz => h.sub.apart y z (hS y hy) (hS z hz), fun y hy => ?_, fun y p z hy hp hz => ?_⟩
  · dsimp only
    by_cases e : y = a
    · subst e
      rw [if_pos rfl, if_pos rfl]
      exact ⟨_, rfl, rfl⟩
    · rw [if_neg e, if_neg (fun hh => e (h.sub.apart y a (hS y hy) ⟨o, ha⟩ hh))]
      exact h.sub.ops y (hS y hy)
  · obtain ⟨q, hq⟩ : ∃ q, m.heap z = some q := by
      have hp' := hp
      dsimp only at hp
      split at hp
      · rename_i hya
        cases hp
        subst hya
        have hsimple := (hm.built y _ hp').simple
        have hz' := nexts_simple hsimple hz
        obtain ⟨pp, ccs, hmem, c1, hc1, rfl⟩ := hz'
        obtain ⟨_, h7⟩ := hm.conns y _ hp' pp ccs hmem
        obtain ⟨tt, h8, _⟩ := h7 c1 hc1
        exact hS _ ⟨tt, h8⟩
      · exact h.sub.closed y p z ⟨p, hp⟩ hp hz
    dsimp only
    split
    · exact ⟨_, rfl⟩
    · exact ⟨q, hq⟩

theorem Along.extra {ops ops' : Map Nat} {m m' n' : Mem V} (h : Along φ ops ops' m m') {x : ConnDesc} (h2 : makeConn ops' x m' = .ok n') (hx : ops.find? x.from' = none) :
    Along φ ops ops' m n' := by
  have hm' := makeConn_making h.other h2
  refine ⟨h.one, hm', h.names, ?_⟩
  obtain ⟨a', b', o', t', c', ga', gb', ha', hb', hc', rfl⟩ := makeConn_ok (fun a o ho => (h.other.built a o ho).simple) h2
  refine ⟨h.sub.apart, fun y hy => ?_, h.sub.closed⟩
  obtain ⟨o, h3, h4⟩ := h.sub.ops y hy
  refine ⟨o, h3, ?_⟩
  dsimp only
  rw [if_neg, h4]
  intro e
  rw [e] at h4
  have h5 := h.other.indexed.all _ _ h4
  have h6 := h.one.indexed.all _ _ h3
  have h7 := h.other.indexed.listed _ _ ga'
  obtain ⟨q, h8, h9⟩ := h7
  rw [h4] at h8
  cases h8
  have : o.core.id = x.from' := h9
  rw [this, hx] at h6
  cases h6

theorem makeConns_along {ops ops' : Map Nat} {cs cs' : List (Json V)} {elsewhere : Json V → Prop} (hi : Inserted elsewhere cs cs')
    (he : ∀ c, elsewhere c → ∀ x, readConn c = .ok x → ops.find? x.from' = none) : ∀ {m n m' n' : Mem V}, Along φ ops ops' m m' →
    makeConns ops cs m = .ok n → makeConns ops' cs' m' = .ok n' → Along φ ops ops' n n' := by
  induction hi with
  | nil => intro m n m' n' h h1 h2; cases h1; cases h2; exact h
  | keep _ ih =>
    intro m n m' n' h h1 h2
    unfold makeConns at h1 h2
    obtain ⟨x, hx, h3⟩ := bind_eq_ok.1 h1
    obtain ⟨m1, hm1, h4⟩ := bind_eq_ok.1 h3
    obtain ⟨x', hx', h5⟩ := bind_eq_ok.1 h2
    obtain ⟨m2, hm2, h6⟩ := bind_eq_ok.1 h5
    rw [hx] at hx'
    cases hx'
    exact ih (h.both hm1 hm2) h4 h6
  | extra ho _ ih =>
    intro m n m' n' h h1 h2
    unfold makeConns at h2
    obtain ⟨x', hx', h5⟩ := bind_eq_ok.1 h2
    obtain ⟨m2, hm2, h6⟩ := bind_eq_ok.1 h5
    exact ih (h.extra hm2 (he _ ho _ hx')) h1 h6

/-! ## Making the operators -/

/-- The operators before they are connected: what their descriptions give. -/
def MadeFrom (junk : Junk V) (xs : List (Json V)) (m : Mem V) : Prop := ∀ a o, m.heap a = some o → ∃ x ∈ xs, ∃ t, HasType x t ∧ simpleOpOf t x (junk a) = some (.ok o)

theorem buildOps_from {junk : Junk V} {fuel : Nat} {all : List (Json V)} (xs : List (Json V)) (hp : ∀ x ∈ xs, ¬ HasType x b!"Pipeline") (hall : ∀ x ∈ xs, x ∈ all) :
    ∀ {ops ops' : Map Nat} {m m' : Mem V}, MadeFrom junk all m → buildOps (readOp junk fuel) xs ops m = .ok (ops', m') → MadeFrom junk all m' := by
  induction xs with
  | nil => intro ops ops' m m' h hb; cases hb; exact h
  | cons x xs ih =>
    intro ops ops' m m' h hb
    unfold buildOps at hb
    obtain ⟨idj, h1, hb1⟩ := bind_eq_ok.1 hb
    obtain ⟨⟨o, m1⟩, h2, hb2⟩ := bind_eq_ok.1 hb1
    obtain ⟨id, h3, hb3⟩ := bind_eq_ok.1 hb2
    clear hb hb1 hb2
    obtain ⟨t, ht, h4, rfl⟩ := readOp_simple h2 (hp x (by simp))
    have ih' := fun {ops ops' m m'} => @ih (fun y hy => hp y (List.mem_cons_of_mem _ hy)) (fun y hy => hall y (List.mem_cons_of_mem _ hy)) ops ops' m m'
    split at hb3
    · exact ih' h hb3
    · refine ih' ?_ hb3
      intro a o' ho
      simp only [Mem.alloc] at ho
      split at ho
      · rename_i ha
        subst ha
        cases ho
        exact ⟨x, hall x (by simp), t, ht, h4⟩
      · exact h a o' ho

/-- Where the operators are in the other program. -/
def placed (h : Nat → Option (Op V)) (ops' : Map Nat) (a : Nat) : Nat :=
  match h a with
  | none => 0
  | some o =>
    match ops'.find? o.core.id with
    | none => 0
    | some b => b

theorem distinct_eq {xs : List (Json V)} (hd : DistinctIds xs) {x y : Json V} {k : Str} (hx : x ∈ xs) (hy : y ∈ xs) (h1 : HasId x k) (h2 : HasId y k) : x = y := by
  induction xs with
  | nil => cases hx
  | cons z xs ih =>
    obtain ⟨h3, h4⟩ := List.pairwise_cons.1 hd
    rcases List.mem_cons.1 hx with e | hx' <;> rcases List.mem_cons.1 hy with e' | hy'
    · rw [e, e']
    · subst e; exact absurd h2 (h3 y hy' k h1)
    · subst e'; exact absurd h1 (h3 x hx' k h2)
    · exact ih h4 hx' hy'

theorem start_along {junk junk' : Junk V} (hj : ∀ a b, junk a = junk' b) {xs xs' : List (Json V)} (hsub : ∀ x ∈ xs, x ∈ xs') (hd : DistinctIds xs')
    (hp : ∀ x ∈ xs, ¬ HasType x b!"Pipeline") (hp' : ∀ x ∈ xs', ¬ HasType x b!"Pipeline") {fuel fuel' : Nat} {ops ops' : Map Nat} {m m' : Mem V}
    (h : buildOps (readOp junk fuel) xs [] ⟨fun _ => none, 0⟩ = .ok (ops, m)) (h' : buildOps (readOp junk' fuel') xs' [] ⟨fun _ => none, 0⟩ = .ok (ops', m')) :
    Along (placed m.heap ops') ops ops' m m' := by
  have hm := buildOps_making xs hp making_start h
  have hm' := buildOps_making xs' hp' making_start h'
  have hf : MadeFrom junk xs m := buildOps_from xs hp (fun _ h => h) (fun _ _ h => by cases h) h
  have hf' : MadeFrom junk' xs' m' := buildOps_from xs' hp' (fun _ h => h) (fun _ _ h => by cases h) h'
  have key : ∀ a o, m.heap a = some o → ∃ b, ops'.find? o.core.id = some b ∧ m'.heap b = some o := by
    intro a o ho
    obtain ⟨x, hx, t, ht, hb⟩ := hf a o ho
    have hid := (simpleOpOf_built hb).2
    have hhas := (buildOps_has xs' h').2 x (hsub x hx) _ hid
    obtain ⟨b, hb'⟩ := Option.isSome_iff_exists.1 hhas
    obtain ⟨o', ho', hid'⟩ := hm'.indexed.listed _ _ hb'
    obtain ⟨x', hx', t', ht', hb2⟩ := hf' b o' ho'
    have hid2 := (simpleOpOf_built hb2).2
    rw [hid'] at hid2
    have : x' = x := distinct_eq hd hx' (hsub x hx) hid2 hid
    subst this
    have := Spec.Member.unique ht ht'
    cases this
    rw [hj a b] at hb
    rw [hb] at hb2
    cases hb2
    exact ⟨b, hb', ho'⟩
  have hpl : ∀ a o, m.heap a = some o → ops'.find? o.core.id = some (placed m.heap ops' a) ∧ m'.heap (placed m.heap ops' a) = some o := by
    intro a o ho
    obtain ⟨b, h1, h2⟩ := key a o ho
    have : placed m.heap ops' a = b := by simp only [placed, ho, h1]
    rw [this]
    exact ⟨h1, h2⟩
  have hbuilt : ∀ a o, m.heap a = some o → Built o := fun a o ho => by
    obtain ⟨x, hx, t, ht, hb⟩ := hf a o ho
    exact (simpleOpOf_built hb).1
  refine ⟨hm, hm', fun k a hk => ?_, fun a b => ?_, fun a => ?_, fun a o b => ?_⟩
  · obtain ⟨o, ho, rfl⟩ := hm.indexed.listed k a hk
    exact (hpl a o ho).1
  · rintro ⟨o, ho⟩ ⟨o', ho'⟩ e
    have h1 := (hpl a o ho).2
    have h2 := (hpl b o' ho').2
    rw [e, h2] at h1
    cases h1
    have h3 := hm.indexed.all a _ ho
    have h4 := hm.indexed.all b _ ho'
    rw [h3] at h4
    exact Option.some.inj h4
  · rintro ⟨o, ho⟩
    refine ⟨o, ho, ?_⟩
    have hs : Simple o := (hm.built a o ho).simple
    have : copied (placed m.heap ops') o = o := by
      rw [copied_simple hs, (hbuilt a o ho).noOutputs]
      have := (hbuilt a o ho).noOutputs
      obtain ⟨c, k⟩ := o
      cases c
      simp only at this
      subst this
      rfl
    rw [this]
    exact (hpl a o ho).2
  · rintro _ ho hb
    obtain ⟨pp, ccs, hmem, _⟩ := nexts_simple (hm.built a o ho).simple hb
    rw [(hbuilt a o ho).noOutputs] at hmem
    cases hmem

end Copy
end Rtbot
