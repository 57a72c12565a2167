import Verif.Spec.Rewire
import Verif.Props.Compose

set_option linter.unusedSectionVars false

/-! # C33: the order in which operators were connected -/

namespace Rtbot
variable {V : Type} [Num V]
open Spec

/-- C33 fails: an operator that is fed by another one both directly and through a third loses a message
when the longer way is connected first, and processes both when the direct one is. -/
theorem C33_order_violated : Rewired (shortcut [⟨1, i1⟩, ⟨2, i1⟩]).st.heap (shortcut [⟨2, i1⟩, ⟨1, i1⟩]).st.heap ∧
    (reportOf ((shortcut [⟨1, i1⟩, ⟨2, i1⟩]).receive 9 [(i1, [⟨1, 5⟩])])).map (listed · [99] o1) = some [⟨1, 6⟩] ∧
    (reportOf ((shortcut [⟨2, i1⟩, ⟨1, i1⟩]).receive 9 [(i1, [⟨1, 5⟩])])).map (listed · [99] o1) = some [⟨1, 5⟩, ⟨1, 6⟩] := by
  refine ⟨?_, by decide +kernel, by decide +kernel⟩
  intro a
  match a with
  | 0 => exact ⟨_, rfl, .cons ⟨rfl, List.Perm.swap _ _ _⟩ .nil⟩
  | 1 => exact ⟨_, rfl, .cons ⟨rfl, .refl _⟩ .nil⟩
  | 2 => exact ⟨_, rfl, .nil⟩
  | n + 3 => trivial

/-! ### Operators fed by single connections -/

theorem Spec.SameConns.find {w w' : Map (List Conn)} (h : SameConns w w') (p : Str) :
    ∀ cs, w.find? p = some cs → ∃ cs', w'.find? p = some cs' ∧ cs.Perm cs' := by
  induction h with
  | nil => intro cs h; cases h
  | @cons e e' w w' he _ ih =>
    intro cs h
    rw [Map.find?_cons] at h ⊢
    rw [← he.1]
    split at h
    · cases h
      rename_i heq
      exact ⟨e'.2, if_pos heq, he.2⟩
    · rename_i hne
      obtain ⟨cs', h1, h2⟩ := ih cs h
      exact ⟨cs', by rw [if_neg hne]; exact h1, h2⟩

theorem Spec.SameConns.find_none {w w' : Map (List Conn)} (h : SameConns w w') (p : Str) : w.find? p = none → w'.find? p = none := by
  induction h with
  | nil => intro _; rfl
  | @cons e e' w w' he _ ih =>
    intro h
    rw [Map.find?_cons] at h ⊢
    rw [← he.1]
    split at h
    · cases h
    · rename_i hne
      rw [if_neg hne]
      exact ih h

theorem Spec.SameConns.targets {w w' : Map (List Conn)} (h : SameConns w w') (b : Nat) :
    b ∈ w'.flatMap (fun e => e.2.map Conn.target) → b ∈ w.flatMap (fun e => e.2.map Conn.target) := by
  induction h with
  | nil => exact id
  | @cons e e' w w' he _ ih =>
    rw [List.flatMap_cons, List.flatMap_cons, List.mem_append, List.mem_append]
    rintro (h | h)
    · exact Or.inl ((he.2.map _).mem_iff.2 h)
    · exact Or.inr (ih h)

theorem Spec.SameConns.symm {w w' : Map (List Conn)} (h : SameConns w w') : SameConns w' w := by
  induction h with
  | nil => exact .nil
  | cons he _ ih => exact .cons ⟨he.1.symm, he.2.symm⟩ ih

theorem Spec.Rewired.here {h h' : Nat → Option (Op V)} (r : Rewired h h') {a : Nat} {o : Op V} (ho : h a = some o) :
    ∃ w, h' a = some (wired o w) ∧ SameConns o.core.outputs w := by
  have := r a
  rw [ho] at this
  cases h'a : h' a with
  | none => rw [h'a] at this; exact this.elim
  | some o' =>
    rw [h'a] at this
    obtain ⟨w, rfl, hw⟩ := this
    exact ⟨w, rfl, hw⟩

theorem Spec.Rewired.symm {h h' : Nat → Option (Op V)} (r : Rewired h h') : Rewired h' h := by
  intro a
  have := r a
  cases ha : h a with
  | none =>
    cases ha' : h' a with
    | none => trivial
    | some o' => rw [ha, ha'] at this; exact this.elim
  | some o =>
    cases ha' : h' a with
    | none => rw [ha, ha'] at this; exact this.elim
    | some o' =>
      rw [ha, ha'] at this
      obtain ⟨w, rfl, hw⟩ := this
      exact ⟨o.core.outputs, rfl, hw.symm⟩

theorem Spec.Rewired.edge {h h' : Nat → Option (Op V)} (r : Rewired h h') {a b : Nat} (e : Edge h a b) : Edge h' a b := by
  obtain ⟨o, ho, hb⟩ := e
  obtain ⟨w, h1, h2⟩ := r.here ho
  refine ⟨_, h1, ?_⟩
  unfold nexts at hb ⊢
  rw [List.mem_append] at hb ⊢
  rcases hb with hb | hb
  · exact Or.inl (h2.symm.targets b hb)
  · exact Or.inr hb

theorem Spec.Rewired.reach {h h' : Nat → Option (Op V)} (r : Rewired h h') {a b : Nat} (e : Reach h a b) : Reach h' a b := by
  induction e with
  | refl => exact .refl
  | step _ e ih => exact .step ih (r.edge e)

theorem Spec.Rewired.conns {h h' : Nat → Option (Op V)} (r : Rewired h h') (a : Nat) (p : Str) : (connsOf h a p).Perm (connsOf h' a p) := by
  unfold connsOf
  cases ha : h a with
  | none =>
    have := r a
    rw [ha] at this
    cases ha' : h' a with
    | none => exact .refl _
    | some o' => rw [ha'] at this; exact this.elim
  | some o =>
    obtain ⟨w, h1, h2⟩ := r.here ha
    rw [h1]
    change List.Perm _ (match w.find? p with | none => [] | some cs => cs)
    dsimp only
    cases hp : o.core.outputs.find? p with
    | none => rw [h2.find_none p hp]
    | some cs =>
      obtain ⟨cs', h3, h4⟩ := h2.find p cs hp
      rw [h3]
      exact h4

theorem Spec.Rewired.wire {h h' : Nat → Option (Op V)} (r : Rewired h h') {a b : Nat} {p q : Str} (w : Wire h a p b q) : Wire h' a p b q where
  source := by
    obtain ⟨o, ho, hs⟩ := w.source
    obtain ⟨w', h1, _⟩ := r.here ho
    exact ⟨_, h1, hs⟩
  target := by
    obtain ⟨t, ht, hs, hq⟩ := w.target
    obtain ⟨w', h1, _⟩ := r.here ht
    exact ⟨_, h1, hs, hq⟩
  sole := fun x e => w.sole x (r.symm.edge e)
  once := by
    intro p'
    have h1 := w.once p'
    have h2 := (r.conns a p').filter (fun c => decide (c.target = b))
    rw [h1] at h2
    split at h2
    · rename_i hp
      rw [if_pos hp]
      exact (List.singleton_perm.1 h2).symm
    · rename_i hp
      rw [if_neg hp]
      exact (List.nil_perm.1 h2)
  noBack := fun x e hr => w.noBack x (r.symm.edge e) (r.symm.reach hr)

theorem Spec.Rewired.yields {h h' : Nat → Option (Op V)} (r : Rewired h h') {x b : Nat} {p0 p : Str} {input out : List (Msg V)}
    (hy : Yields h x p0 input b p out) : Yields h' x p0 input b p out := by
  induction hy with
  | entry p ho hf =>
    obtain ⟨w, h1, _⟩ := r.here ho
    exact .entry p h1 (hf.wired w)
  | next p' _ w ho hf ih =>
    obtain ⟨w', h1, _⟩ := r.here ho
    exact .next p' ih (r.wire w) h1 (hf.wired w')

theorem Spec.Rewired.connected {h h' : Nat → Option (Op V)} (r : Rewired h h') (hc : ∀ b o, h b = some o → Connected o) :
    ∀ b o, h' b = some o → Connected o := by
  intro b o' ho'
  obtain ⟨w, h1, _⟩ := r.symm.here ho'
  obtain ⟨o, w', hb, he⟩ := hc b _ h1
  refine ⟨o, o'.core.outputs, hb, ?_⟩
  have : o' = wired (wired o' w) o'.core.outputs := rfl
  exact this.trans ((congrArg (fun t => wired t o'.core.outputs) he).trans rfl)

theorem Spec.Rewired.acyclic {h h' : Nat → Option (Op V)} (r : Rewired h h') (hac : Acyclic h) : Acyclic h' :=
  fun a b e hr => hac a b (r.symm.edge e) (r.symm.reach hr)

/-- C33 where it holds: what an operator emits to which a path of sole connections leads from the entry is the same whatever the
order of connecting. Missing: operators with several incoming connections, for which it fails in general (`C33_order_violated`). -/
theorem C33_tree_partial {P Q P' Q' : Prog V} {fuel fuel' x : Nat} {p0 : Str} {mss : List (List (Msg V))} {rs rs'}
    (r : Rewired P.st.heap Q.st.heap) (hc : ∀ b o, P.st.heap b = some o → Connected o) (hac : Acyclic P.st.heap)
    (hx : P.ops.find? P.entry = some x) (hx' : Q.ops.find? Q.entry = some x)
    (h : debugRun fuel (mss.map fun ms => [(p0, ms)]) P = .ok rs P') (h' : debugRun fuel' (mss.map fun ms => [(p0, ms)]) Q = .ok rs' Q')
    {b : Nat} {p : Str} {out : List (Msg V)} (hy : Yields P.st.heap x p0 mss.flatten b p out) {o : Op V} (ho : P.st.heap b = some o)
    (hu : ∀ x o', P.st.heap x = some o' → o'.core.id = o.core.id → x = b) :
    (rs.flatMap fun r => listed r o.core.id p) = out ∧ (rs'.flatMap fun r => listed r o.core.id p) = out := by
  refine ⟨C32_reports hc hac hx h hy ho hu, ?_⟩
  obtain ⟨w, h1, _⟩ := r.here ho
  exact C32_reports (o := wired o w) (r.connected hc) (r.acyclic hac) hx' h' (r.yields hy) h1 (by
    intro y o' ho' hid
    obtain ⟨w', h2, _⟩ := r.symm.here ho'
    exact hu y _ h2 hid)

/-! ### A case -/

/-- The diamond with the connections of its entry in the other order. -/
def diamondSwapped : Prog ℚ :=
  progOf [wired (Op.newIdentity [97]) [(o1, [⟨2, i1⟩, ⟨1, i1⟩])], wired (Op.newAdd [98] 1) [(o1, [⟨3, i1⟩])],
    wired (Op.newScale [99] 2) [(o1, [⟨3, i2⟩])], Op.newBinary [100] .minus] []

example : Rewired (diamond []).st.heap diamondSwapped.st.heap := by
  intro a
  match a with
  | 0 => exact ⟨_, rfl, .cons ⟨rfl, List.Perm.swap _ _ _⟩ .nil⟩
  | 1 => exact ⟨_, rfl, .cons ⟨rfl, .refl _⟩ .nil⟩
  | 2 => exact ⟨_, rfl, .cons ⟨rfl, .refl _⟩ .nil⟩
  | 3 => exact ⟨_, rfl, .nil⟩
  | n + 4 => trivial

example : (reportOf (debugRun 9 [[(i1, [⟨1, 5⟩, ⟨2, 7⟩])]] diamondSwapped)).map (·.map (listed · [98] o1)) = some [[⟨1, 6⟩, ⟨2, 8⟩]] := by
  decide +kernel

end Rtbot
