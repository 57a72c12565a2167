import Verif.Lemmas.ReplacePairs
import Verif.Lemmas.Wiring

set_option linter.unusedSectionVars false

/-! # Programs created from descriptions of interchangeable operators -/

namespace Rtbot
namespace Replace
variable {V : Type} [Num V]
open Spec

/-- The same outputs result from connecting. -/
theorem connect_same {o o' t t' : Op V} (h : SameFace o o') (ht : SameFace t t') {b : Nat} {p q : Str} {c c' : Core V} (h1 : o.core.connect t.core b p q = .ok (some c))
    (h2 : o'.core.connect t'.core b p q = .ok (some c')) : ∃ w, c = { o.core with outputs := w } ∧ c' = { o'.core with outputs := w } := by
  unfold Core.connect at h1 h2
  have e1 : t'.core.allInputs = t.core.allInputs := by unfold Core.allInputs; rw [ht.data, ht.ctrl]
  have e2 : ∀ p, t'.core.isData p = t.core.isData p := fun p => (has_keys ht.data p).symm
  have e3 : o'.core.outIds = o.core.outIds := h.outs.symm
  have e4 : o'.core.outputs = o.core.outputs := h.conns.symm
  simp only [e1, e2, e3, e4] at h2
  dsimp only at h1
  generalize (if p = [] then (match o.core.outIds with | [p] => p | _ => p) else p) = p' at h1 h2
  generalize (if q = [] then (match t.core.allInputs with | [p] => if t.core.isData p then p else q | _ => q) else q) = q' at h1 h2
  split at h1
  · cases h1
  rename_i g1
  rw [if_neg g1] at h2
  split at h1
  · cases h1
  rename_i g2
  rw [if_neg g2] at h2
  split at h1
  · rename_i g3
    rw [if_pos g3] at h2
    cases hf : o.core.outputs.find? p' with
    | none =>
      rw [hf] at h1 h2
      cases h1
      cases h2
      exact ⟨_, rfl, by rw [← e3]⟩
    | some v =>
      rw [hf] at h1 h2
      cases h1
      cases h2
      exact ⟨_, rfl, by rw [← e3]⟩
  · cases h1

/-- While the operators are being made and connected. -/
structure Along (ops : Map Nat) (m m' : Mem V) : Prop where
  one : Making ops m
  other : Making ops m'
  next : m.next = m'.next
  rel : Replaced m.heap m'.heap

theorem face_like {o o' : Op V} (h : o = o' ∨ Interchangeable o o') : SameFace o o' := by
  rcases h with rfl | h
  · exact face_refl _
  · exact h.face

theorem rel_some {m m' : Nat → Option (Op V)} (h : Replaced m m') {a : Nat} {o o' : Op V} (ho : m a = some o) (ho' : m' a = some o') : o = o' ∨ Interchangeable o o' := by
  have := h a
  rw [ho, ho'] at this
  cases this with
  | some h => exact h

theorem Along.conn {ops : Map Nat} {m n m' n' : Mem V} (h : Along ops m m') {x : ConnDesc} (h1 : makeConn ops x m = .ok n) (h2 : makeConn ops x m' = .ok n') : Along ops n n' := by
  have hm := makeConn_making h.one h1
  have hm' := makeConn_making h.other h2
  obtain ⟨a, b, o, t, c, ga, gb, ha, hb, hc, rfl⟩ := makeConn_ok (fun a o ho => (h.one.built a o ho).simple) h1
  obtain ⟨a', b', o', t', c', ga', gb', ha', hb', hc', rfl⟩ := makeConn_ok (fun a o ho => (h.other.built a o ho).simple) h2
  rw [ga] at ga'
  cases ga'
  rw [gb] at gb'
  cases gb'
  have l1 := rel_some h.rel ha ha'
  have l2 := rel_some h.rel hb hb'
  obtain ⟨w, rfl, rfl⟩ := connect_same (face_like l1) (face_like l2) hc hc'
  refine ⟨hm, hm', h.next, fun y => ?_⟩
  dsimp only
  split
  · refine .some ?_
    rcases l1 with rfl | hi
    · exact .inl rfl
    · exact .inr (inter_wired hi w)
  · exact h.rel y

theorem Along.conns {ops : Map Nat} (cs : List (Json V)) : ∀ {m n m' n' : Mem V}, Along ops m m' → makeConns ops cs m = .ok n → makeConns ops cs m' = .ok n' → Along ops n n' := by
  induction cs with
  | nil => intro m n m' n' h h1 h2; cases h1; cases h2; exact h
  | cons c cs ih =>
    intro m n m' n' h h1 h2
    unfold makeConns at h1 h2
    obtain ⟨x, hx, h3⟩ := bind_eq_ok.1 h1
    obtain ⟨m1, hm1, h4⟩ := bind_eq_ok.1 h3
    obtain ⟨x', hx', h5⟩ := bind_eq_ok.1 h2
    obtain ⟨m2, hm2, h6⟩ := bind_eq_ok.1 h5
    rw [hx] at hx'
    cases hx'
    exact ih (h.conn hm1 hm2) h4 h6

theorem hasId_unique {x : Json V} {k k' : Str} (h : HasId x k) (h' : HasId x k') : k = k' := by
  have := Spec.Member.unique h h'
  cases this
  rfl

theorem Along.build {junk : Junk V} {fuel fuel' : Nat} {xs ys : List (Json V)} (hxy : List.Forall₂ (SameOperator junk) xs ys) (hp : ∀ x ∈ xs, ¬ HasType x b!"Pipeline")
    (hp' : ∀ y ∈ ys, ¬ HasType y b!"Pipeline") : ∀ {ops ops1 ops2 : Map Nat} {m n m' n' : Mem V}, Along ops m m' → buildOps (readOp junk fuel) xs ops m = .ok (ops1, n) →
    buildOps (readOp junk fuel') ys ops m' = .ok (ops2, n') → ops1 = ops2 ∧ Along ops1 n n' := by
  induction hxy with
  | nil => intro ops ops1 ops2 m n m' n' h h1 h2; cases h1; cases h2; exact ⟨rfl, h⟩
  | @cons x y xs ys hs _ ih =>
    intro ops ops1 ops2 m n m' n' h h1 h2
    unfold buildOps at h1 h2
    obtain ⟨idj, a1, b1⟩ := bind_eq_ok.1 h1
    obtain ⟨⟨o, m1⟩, a2, b2⟩ := bind_eq_ok.1 b1
    obtain ⟨id, a3, b3⟩ := bind_eq_ok.1 b2
    obtain ⟨idj', a1', b1'⟩ := bind_eq_ok.1 h2
    obtain ⟨⟨o', m1'⟩, a2', b2'⟩ := bind_eq_ok.1 b1'
    obtain ⟨id', a3', b3'⟩ := bind_eq_ok.1 b2'
    clear h1 h2 b1 b2 b1' b2'
    obtain ⟨t, ht, h4, rfl⟩ := readOp_simple a2 (hp x (by simp))
    obtain ⟨u, hu, h4', rfl⟩ := readOp_simple a2' (hp' y (by simp))
    have hid : HasId x id := by
      unfold HasId
      rw [← getStr_ok a3]
      exact sub_ok a1
    have hid' : HasId y id' := by
      unfold HasId
      rw [← getStr_ok a3']
      exact sub_ok a1'
    have : id' = id := hasId_unique hid' ((hs.1 id).1 hid)
    subst this
    have hl := hs.2 t u m1.next o o' ht hu h4 (by rw [h.next]; exact h4')
    obtain ⟨hb, hbid⟩ := simpleOpOf_built h4
    obtain ⟨hb', hbid'⟩ := simpleOpOf_built h4'
    have e1 : o.core.id = id' := hasId_unique hbid hid
    have e2 : o'.core.id = id' := hasId_unique hbid' hid'
    have ih' := fun {ops ops1 ops2 m n m' n'} => @ih (fun z hz => hp z (List.mem_cons_of_mem _ hz)) (fun z hz => hp' z (List.mem_cons_of_mem _ hz)) ops ops1 ops2 m n m' n'
    by_cases hh : ops.has id' = true
    · rw [if_pos hh] at b3 b3'
      exact ih' h b3 b3'
    · rw [if_neg hh] at b3 b3'
      have hh' : ops.has id' = false := by simpa using hh
      refine ih' ⟨?_, ?_, ?_, fun z => ?_⟩ b3 (by rw [h.next]; exact b3')
      · have := h.one.add hb (by rw [e1]; exact hh')
        rwa [e1] at this
      · have := h.other.add hb' (by rw [e2]; exact hh')
        rw [e2] at this
        rw [h.next]
        exact this
      · simp only [Mem.alloc, h.next]
      · simp only [Mem.alloc, h.next]
        split
        · exact .some hl
        · exact h.rel z

theorem along_start : Along ([] : Map Nat) (⟨fun _ => none, 0⟩ : Mem V) ⟨fun _ => none, 0⟩ := ⟨making_start, making_start, rfl, fun _ => .none⟩

end Replace
end Rtbot
