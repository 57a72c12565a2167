import Verif.Lemmas.Bisim
import Verif.Lemmas.Wired
import Verif.Lemmas.Terminate
import Verif.Spec.Flat

set_option linter.unusedSectionVars false

/-! # Operators in and without Composites behave alike

The heap on the left has Composites, the heap on the right has none. `side` tells which of the two computations is known to end. -/

namespace Rtbot
variable {V : Type} [Num V]
open Spec

/-- The operator without Composites. -/
def unboxed (h0 : Nat → Option (Op V)) (o : Op V) : Op V := wired o (redirected h0 o.core.outputs)

/-- Related states: what is no Composite has a counterpart whose connections are redirected. -/
structure Opened (h0 : Nat → Option (Op V)) (s s' : St V) : Prop where
  shape : SameShape h0 s.heap
  cells : ∀ a, taker h0 a = a → Both (fun o o' => o' = unboxed h0 o) (s.heap a) (s'.heap a)
  still : ∀ a, taker h0 a ≠ a → s.heap a = h0 a

/-- Related outcomes. -/
def OpenedRes {α : Type} (h0 : Nat → Option (Op V)) : Res (St V) α → Res (St V) α → Prop
  | .ok a t, .ok b t' => a = b ∧ Opened h0 t t'
  | .err e t, .err e' t' => e = e' ∧ Opened h0 t t'
  | _, _ => False

/-- One of the computations is known to end. -/
def Known {σ τ α β : Type} (side : Bool) (r : Res σ α) (r' : Res τ β) : Prop := if side then ND r else ND r'

/-- When the one computation ends the other one does the same. -/
def Sim {α : Type} (side : Bool) (h0 : Nat → Option (Op V)) (x y : M (St V) α) : Prop :=
  ∀ s s', Opened h0 s s' → Known side (x s) (y s') → OpenedRes h0 (x s) (y s')

variable {side : Bool} {h0 : Nat → Option (Op V)}

theorem nd_of_bind {σ α β : Type} {x : M σ α} {f : α → M σ β} {s : σ} (h : ND ((x >>= f) s)) : ND (x s) := by
  intro t ht
  refine h t ?_
  rw [M.bind_def, ht]

theorem nd_next {σ α β : Type} {x : M σ α} {f : α → M σ β} {s s1 : σ} {a : α} (h : ND ((x >>= f) s)) (hx : x s = .ok a s1) : ND (f a s1) := by
  rw [M.bind_def, hx] at h
  exact h

theorem Sim.bind {α β : Type} {x y : M (St V) α} {f g : α → M (St V) β} (h : Sim side h0 x y) (hf : ∀ a, Sim side h0 (f a) (g a)) :
    Sim side h0 (x >>= f) (y >>= g) := by
  intro s s' hs hk
  have h1 : Known side (x s) (y s') := by
    cases side
    · exact nd_of_bind (σ := St V) hk
    · exact nd_of_bind (σ := St V) hk
  have h2 := h s s' hs h1
  have hk2 : ∀ a b t t', x s = .ok a t → y s' = .ok b t' → Known side (f a t) (g b t') := by
    intro a b t t' hx hy
    cases side
    · exact nd_next (σ := St V) hk hy
    · exact nd_next (σ := St V) hk hx
  rw [M.bind_def, M.bind_def]
  cases hx : x s <;> cases hy : y s' <;> rw [hx, hy] at h2 <;> first | exact h2.elim | skip
  · rename_i a t b t'
    obtain ⟨rfl, h3⟩ := h2
    exact hf a t t' h3 (hk2 _ _ _ _ hx hy)
  · exact h2

theorem Sim.pure {α : Type} (a : α) : Sim side h0 (Pure.pure a) (Pure.pure a) := fun _ _ hs _ => ⟨rfl, hs⟩

theorem Sim.throw {α : Type} (e : Err) : Sim side h0 (M.throw e : M (St V) α) (M.throw e) := fun _ _ hs _ => ⟨rfl, hs⟩

theorem Sim.log (e e' : Ev V) : Sim side h0 (logEv e) (logEv e') := fun _ _ hs _ => ⟨rfl, hs.shape, hs.cells, hs.still⟩

theorem Sim.lift {α : Type} (r : Except Err α) : Sim side h0 (M.lift r) (M.lift r) := by
  intro s s' hs _
  cases r <;> exact ⟨rfl, hs⟩

theorem Sim.fold {α β γ : Type} {f : β → α → M (St V) β} {g : β → γ → M (St V) β} {k : α → γ} (l : List α)
    (h : ∀ b, ∀ x ∈ l, Sim side h0 (f b x) (g b (k x))) : ∀ b, Sim side h0 (M.fold f l b) (M.fold g (l.map k) b) := by
  induction l with
  | nil => intro b; exact Sim.pure b
  | cons x l ih => intro b; exact Sim.bind (h b x (by simp)) fun b' => ih (fun b y hy => h b y (List.mem_cons_of_mem _ hy)) b'

theorem Sim.fold_same {α β : Type} {f g : β → α → M (St V) β} (l : List α) (h : ∀ b, ∀ x ∈ l, Sim side h0 (f b x) (g b x)) (b : β) :
    Sim side h0 (M.fold f l b) (M.fold g l b) := by
  have := Sim.fold (k := id) l h b
  rwa [List.map_id] at this

/-! ## The operators -/

theorem taker_comp {a i : Nat} {o : Op V} {q : Option Nat} (ho : h0 a = some o) (hk : o.kind = .composite (some i) q) : taker h0 a = i := by
  simp only [taker, ho, hk]

theorem taker_none {a : Nat} (ho : h0 a = none) : taker h0 a = a := by simp only [taker, ho]

theorem taker_other {a : Nat} {o : Op V} (ho : h0 a = some o) (hk : ∀ i q, o.kind ≠ .composite i q) : taker h0 a = a := by
  simp only [taker, ho]
  cases ho' : o.kind with
  | composite i q => exact absurd ho' (hk i q)
  | _ => rfl

theorem simple_kind {o : Op V} (h : Simple o) : (∀ i q, o.kind ≠ .composite i q) ∧ ∀ i q pm, o.kind ≠ .pipeline i q pm := by
  constructor
  · intro i q hk
    rw [Simple, hk] at h
    exact h
  · intro i q pm hk
    rw [Simple, hk] at h
    exact h

variable (hc : Composed h0)
include hc

/-- A Composite, and everything else. -/
theorem taker_cases (a : Nat) : (∃ o i q t, h0 a = some o ∧ o.kind = .composite (some i) q ∧ taker h0 a = i ∧ taker h0 i = i ∧ h0 i = some t ∧
    (∀ p, o.core.isData p = t.core.isData p) ∧ ∀ p, o.core.isCtrl p = t.core.isCtrl p) ∨
    (taker h0 a = a ∧ ∀ o, h0 a = some o → ∀ i q, o.kind ≠ .composite i q) := by
  cases ho : h0 a with
  | none => exact Or.inr ⟨taker_none ho, fun o h => by cases h⟩
  | some o =>
    by_cases hk : ∃ i q, o.kind = .composite i q
    · obtain ⟨i, q, hk⟩ := hk
      obtain ⟨j, t, rfl, hj, ht, h1, h2⟩ := hc.inputs a o i q ho hk
      exact Or.inl ⟨o, j, q, t, rfl, hk, taker_comp ho hk, taker_other hj (simple_kind ht).1, hj, h1, h2⟩
    · have : ∀ i q, o.kind ≠ .composite i q := fun i q h => hk ⟨i, q, h⟩
      exact Or.inr ⟨taker_other ho this, fun o' h => by cases h; exact this⟩

theorem taker_idem (a : Nat) : taker h0 (taker h0 a) = taker h0 a := by
  rcases taker_cases hc a with ⟨o, i, q, t, _, _, h1, h2, _⟩ | ⟨h1, _⟩
  · rw [h1, h2]
  · rw [h1, h1]

/-- What the caller sees of the operator it calls. -/
theorem Sim.target {α : Type} (a : Nat) {f g : Op V → M (St V) α}
    (h : ∀ o o', (∀ p, o.core.isData p = o'.core.isData p) → (∀ p, o.core.isCtrl p = o'.core.isCtrl p) → Sim side h0 (f o) (g o')) :
    Sim side h0 (getOp a >>= f) (getOp (taker h0 a) >>= g) := by
  intro s s' hs hk
  have hcell := hs.cells (taker h0 a) (taker_idem hc a)
  cases ho : s.heap a with
  | none =>
    have ht : taker h0 a = a := by
      refine taker_none ?_
      have := hs.shape a
      rw [ho] at this
      simpa using this.symm
    rw [ht, ho] at hcell
    cases hcell' : s'.heap a with
    | some o' => rw [hcell'] at hcell; cases hcell
    | none =>
      rw [ht, M.bind_def, M.bind_def]
      simp only [getOp, ho, hcell']
      exact ⟨rfl, hs⟩
  | some o =>
    obtain ⟨o0, ho0, hof⟩ := hs.shape.get' ho
    have hports : ∃ u, s.heap (taker h0 a) = some u ∧ (∀ p, o.core.isData p = u.core.isData p) ∧ ∀ p, o.core.isCtrl p = u.core.isCtrl p := by
      rcases taker_cases hc a with ⟨o1, i, q, t, h1, h2, h3, h4, h5, h6, h7⟩ | ⟨h1, _⟩
      · rw [ho0] at h1
        cases h1
        rw [h3]
        obtain ⟨u, hu, huf⟩ := hs.shape.get h5
        exact ⟨u, hu, fun p => by rw [← isData_of_fresh hof, h6, isData_of_fresh huf], fun p => by rw [← isCtrl_of_fresh hof, h7, isCtrl_of_fresh huf]⟩
      · rw [h1]
        exact ⟨o, ho, fun _ => rfl, fun _ => rfl⟩
    obtain ⟨u, hu, hd, hct⟩ := hports
    rw [hu] at hcell
    cases hcell' : s'.heap (taker h0 a) with
    | none => rw [hcell'] at hcell; cases hcell
    | some u' =>
      rw [hcell'] at hcell
      cases hcell with
      | some hu' =>
        subst hu'
        rw [M.bind_def, M.bind_def] at hk ⊢
        simp only [getOp, ho, hcell'] at hk ⊢
        exact h o (unboxed h0 u) hd hct s s' hs hk

theorem Opened.set {s s' : St V} (hs : Opened h0 s s') {a : Nat} (ha : taker h0 a = a) {o n : Op V} (ho : s.heap a = some o) (hf : n.fresh = o.fresh) :
    Opened h0 (s.setOp a n) (s'.setOp a (unboxed h0 n)) := by
  constructor
  · intro b
    rw [setOp_heap]
    split
    · rename_i hb
      rw [← hs.shape b, hb, ho]
      simp [hf]
    · exact hs.shape b
  · intro b hb
    rw [setOp_heap, setOp_heap]
    split
    · exact .some rfl
    · exact hs.cells b hb
  · intro b hb
    rw [setOp_heap, if_neg (by rintro rfl; exact hb ha)]
    exact hs.still b hb

/-- The operator itself. -/
theorem Sim.own {α : Type} {a : Nat} (ha : taker h0 a = a) {f g : Op V → M (St V) α} (h : ∀ o, (∃ o0, h0 a = some o0 ∧ o0.fresh = o.fresh) → Sim side h0 (f o) (g (unboxed h0 o))) :
    Sim side h0 (getOp a >>= f) (getOp a >>= g) := by
  intro s s' hs hk
  have hcell := hs.cells a ha
  rw [M.bind_def, M.bind_def] at hk ⊢
  unfold getOp at hk ⊢
  cases ho : s.heap a <;> cases ho' : s'.heap a <;> rw [ho, ho'] at hcell
  · exact ⟨rfl, hs⟩
  · cases hcell
  · cases hcell
  · cases hcell with
    | some hu =>
      subst hu
      simp only [ho, ho'] at hk ⊢
      exact h _ (hs.shape.get' ho) s s' hs hk

/-- A local step that does not look at the connections. -/
theorem Sim.step {α : Type} {a : Nat} (ha : taker h0 a = a) {f : Op V → Res (Op V) α} (hw : ∀ o w, f (wired o w) = (f o).mapState fun o => wired o w)
    (hf : ∀ o : Op V, o.core.WF → (f o).state.fresh = o.fresh) (hwf : HeapWF h0) : Sim side h0 (localRun a f) (localRun a f) := by
  intro s s' hs hk
  have hcell := hs.cells a ha
  unfold localRun
  cases ho : s.heap a <;> cases ho' : s'.heap a <;> rw [ho, ho'] at hcell
  · exact ⟨rfl, hs⟩
  · cases hcell
  · cases hcell
  · rename_i o o'
    cases hcell with
    | some hu =>
      subst hu
      have hfr := hf o (hs.shape.wf hwf a o ho)
      have hout := outputs_of_fresh hfr
      dsimp only
      rw [unboxed, hw]
      cases hr : f o with
      | ok x n =>
        rw [hr] at hfr hout
        have := hs.set hc ha ho hfr
        rw [unboxed, hout] at this
        exact ⟨rfl, this⟩
      | err e n =>
        rw [hr] at hfr hout
        have := hs.set hc ha ho hfr
        rw [unboxed, hout] at this
        exact ⟨rfl, this⟩

theorem upd_wired {f : Op V → Except Err (Op V)} (hf : ∀ o w, f (wired o w) = (f o).map fun o => wired o w) (o : Op V) (w : Map (List Conn)) :
    updWith f (wired o w) = (updWith f o).mapState fun o => wired o w := by
  unfold updWith
  rw [hf]
  cases f o <;> rfl

theorem upd_fresh {f : Op V → Except Err (Op V)} (hf : ∀ {o o' : Op V}, o.core.WF → f o = .ok o' → o'.fresh = o.fresh) (o : Op V) (hw : o.core.WF) :
    (updWith f o).state.fresh = o.fresh := by
  unfold updWith
  cases h : f o with
  | ok n => exact hf hw h
  | error e => rfl

/-! ## Messages -/

omit hc in
/-- The fuel of the two computations. `moved` when the computation on the left begins at a Composite. -/
def Fuels (side moved : Bool) (F f : Nat) : Prop := if side then F ≤ f else 2 * f ≤ F + if moved then 0 else 1

omit hc in
theorem Fuels.any {moved : Bool} {F f : Nat} (h : Fuels side true F f) : Fuels side moved F f := by
  revert h
  cases side <;> cases moved <;> simp only [Fuels] <;> intro h <;> simp at h ⊢ <;> omega

omit hc in
/-- A step on both sides. -/
theorem Fuels.both {F f : Nat} (h : Fuels side false (F + 1) f) : f = 0 ∧ side = false ∨ ∃ g, f = g + 1 ∧ Fuels side true F g := by
  cases f with
  | zero =>
    cases side with
    | false => exact Or.inl ⟨rfl, rfl⟩
    | true => simp [Fuels] at h
  | succ g =>
    refine Or.inr ⟨g, rfl, ?_⟩
    revert h
    cases side <;> simp only [Fuels] <;> intro h <;> simp at h ⊢ <;> omega

omit hc in
/-- A step on the left only. -/
theorem Fuels.left {F f : Nat} (h : Fuels side true (F + 1) f) : Fuels side false F f := by
  revert h
  cases side <;> simp only [Fuels] <;> intro h <;> simp at h ⊢ <;> omega

omit hc in
theorem Fuels.zero {moved : Bool} {f : Nat} (h : Fuels side moved 0 f) : side = true ∨ f = 0 := by
  revert h
  cases side <;> cases moved <;> simp only [Fuels] <;> intro h <;> simp at h ⊢ <;> omega

omit hc in
/-- The computation that is known to end does not. -/
theorem Sim.never {α : Type} {x y : M (St V) α} (hx : side = true → ∀ s, ∃ t, x s = .err .diverge t) (hy : side = false → ∀ s, ∃ t, y s = .err .diverge t) :
    Sim side h0 x y := by
  intro s s' hs hk
  cases side with
  | true =>
    obtain ⟨t, ht⟩ := hx rfl s
    exact absurd ht (hk t)
  | false =>
    obtain ⟨t, ht⟩ := hy rfl s'
    exact absurd ht (hk t)

omit hc in
/-- Is the operator a Composite? -/
def Moved (h0 : Nat → Option (Op V)) (a : Nat) : Bool := decide (taker h0 a ≠ a)

omit hc in
theorem moved_own {a : Nat} (h : taker h0 a = a) : Moved h0 a = false := by simp [Moved, h]

omit hc in
theorem kind_fresh {o o0 : Op V} (h : o0.fresh = o.fresh) : (∀ i q, o.kind = .composite i q ↔ o0.kind = .composite i q) ∧
    ∀ i q pm, o.kind = .pipeline i q pm ↔ o0.kind = .pipeline i q pm :=
  ⟨fun _ _ => ⟨kind_of_fresh_composite h, kind_of_fresh_composite h.symm⟩, fun _ _ _ => ⟨kind_of_fresh_pipeline h, kind_of_fresh_pipeline h.symm⟩⟩

omit hc in
theorem recvData_left {F : Nat} {frm : Option (Nat × Str)} {a i : Nat} {m : Msg V} {p : Str} {o : Op V} {q : Option Nat} {y : M (St V) Unit}
    (ho : h0 a = some o) (hk : o.kind = .composite (some i) q) (h : Sim side h0 (recvData F none i m p) y) : Sim side h0 (recvData (F + 1) frm a m p) y := by
  intro s s' hs hkn
  obtain ⟨o', ho', hf⟩ := hs.shape.get ho
  rw [recvData_comp ho' (kind_of_fresh_composite hf hk)] at hkn ⊢
  exact h _ s' ⟨hs.shape, hs.cells, hs.still⟩ hkn

omit hc in
theorem recvCtrl_left {F : Nat} {frm : Option (Nat × Str)} {a i : Nat} {m : Msg V} {p : Str} {o : Op V} {q : Option Nat} {y : M (St V) Unit}
    (ho : h0 a = some o) (hk : o.kind = .composite (some i) q) (h : Sim side h0 (recvCtrl F none i m p) y) : Sim side h0 (recvCtrl (F + 1) frm a m p) y := by
  intro s s' hs hkn
  obtain ⟨o', ho', hf⟩ := hs.shape.get ho
  rw [recvCtrl_comp ho' (kind_of_fresh_composite hf hk)] at hkn ⊢
  exact h _ s' ⟨hs.shape, hs.cells, hs.still⟩ hkn

omit hc in
theorem exec_left {F : Nat} {ctrl : Bool} {a i : Nat} {o : Op V} {q : Option Nat} {y : M (St V) (ProgMsg V)}
    (ho : h0 a = some o) (hk : o.kind = .composite (some i) q) (h : Sim side h0 (exec F ctrl i) y) : Sim side h0 (exec (F + 1) ctrl a) y := by
  intro s s' hs hkn
  obtain ⟨o', ho', hf⟩ := hs.shape.get ho
  rw [exec_comp ho' (kind_of_fresh_composite hf hk)] at hkn ⊢
  exact h _ s' ⟨hs.shape, hs.cells, hs.still⟩ hkn

omit hc in
theorem moved_comp {a i : Nat} {o : Op V} {q : Option Nat} (h1 : taker h0 a = i) (h2 : taker h0 i = i) (ho : h0 a = some o) (hk : o.kind = .composite (some i) q)
    {t : Op V} (hi : h0 i = some t) (ht : Simple t) : Moved h0 a = true := by
  have : i ≠ a := by
    rintro rfl
    rw [ho] at hi
    cases hi
    exact (simple_kind ht).1 _ _ hk
  simp [Moved, h1, this]

theorem recvData_sim (hwf : HeapWF h0) (F : Nat) : ∀ (f : Nat) (frm frm' : Option (Nat × Str)) (a : Nat) (m : Msg V) (p : Str), Fuels side (Moved h0 a) F f →
    Sim side h0 (recvData F frm a m p) (recvData f frm' (taker h0 a) m p) := by
  induction F with
  | zero =>
    intro f frm frm' a m p hf
    refine Sim.never (fun _ s => ⟨s, rfl⟩) fun h s => ?_
    rcases hf.zero with h' | rfl
    · rw [h] at h'; cases h'
    · exact ⟨s, rfl⟩
  | succ F ih =>
    intro f frm frm' a m p hf
    rcases taker_cases hc a with ⟨o, i, q, t, ho, hk, h1, h2, hi, _, _⟩ | ⟨h1, h2⟩
    · obtain ⟨j, t', hj, hj', ht, _⟩ := hc.inputs a o _ q ho hk
      cases hj
      rw [hi] at hj'
      cases hj'
      rw [moved_comp h1 h2 ho hk hi ht] at hf
      refine recvData_left ho hk ?_
      have := ih f none frm' i m p (by rw [moved_own h2]; exact hf.left)
      rw [h2] at this
      rw [h1]
      exact this
    · rw [moved_own h1] at hf
      rw [h1]
      rcases hf.both with ⟨rfl, hside⟩ | ⟨g, rfl, hg⟩
      · exact Sim.never (fun h s => by rw [h] at hside; cases hside) fun _ s => ⟨s, rfl⟩
      · refine Sim.bind (Sim.log _ _) fun _ => Sim.own hc h1 fun o ⟨o0, ho0, hof⟩ => ?_
        have hcomp : ∀ i q, o.kind ≠ .composite i q := fun i q hk => h2 o0 ho0 i q (((kind_fresh hof).1 i q).1 hk)
        have hkind : (unboxed h0 o).kind = o.kind := rfl
        rw [hkind]
        have hloc : Sim side h0 (localRun a (updWith fun o => o.recvData m p)) (localRun a (updWith fun o => o.recvData m p)) :=
          Sim.step hc h1 (upd_wired hc fun o w => recvData_wired o w m p) (upd_fresh hc fun hw h => recvData_fresh hw h) hwf
        cases hk : o.kind with
        | composite i q => exact absurd hk (hcomp i q)
        | pipeline ins outs pm =>
          refine Sim.bind (Sim.lift _) fun key => ?_
          cases ht : ins.find? key with
          | none => exact Sim.throw _
          | some t =>
            have htk := hc.pipes a o0 ins outs pm key t ho0 (((kind_fresh hof).2 _ _ _).1 hk) ht
            have := ih g none none t m (split2 key).2 hg.any
            rw [htk] at this
            exact Sim.bind this fun _ => Sim.step hc h1 (fun _ _ => rfl) (fun _ _ => rfl) hwf
        | _ => exact hloc

theorem recvCtrl_sim (hwf : HeapWF h0) (F : Nat) : ∀ (f : Nat) (frm frm' : Option (Nat × Str)) (a : Nat) (m : Msg V) (p : Str), Fuels side (Moved h0 a) F f →
    Sim side h0 (recvCtrl F frm a m p) (recvCtrl f frm' (taker h0 a) m p) := by
  induction F with
  | zero =>
    intro f frm frm' a m p hf
    refine Sim.never (fun _ s => ⟨s, rfl⟩) fun h s => ?_
    rcases hf.zero with h' | rfl
    · rw [h] at h'; cases h'
    · exact ⟨s, rfl⟩
  | succ F ih =>
    intro f frm frm' a m p hf
    rcases taker_cases hc a with ⟨o, i, q, t, ho, hk, h1, h2, hi, _, _⟩ | ⟨h1, h2⟩
    · obtain ⟨j, t', hj, hj', ht, _⟩ := hc.inputs a o _ q ho hk
      cases hj
      rw [hi] at hj'
      cases hj'
      rw [moved_comp h1 h2 ho hk hi ht] at hf
      refine recvCtrl_left ho hk ?_
      have := ih f none frm' i m p (by rw [moved_own h2]; exact hf.left)
      rw [h2] at this
      rw [h1]
      exact this
    · rw [moved_own h1] at hf
      rw [h1]
      rcases hf.both with ⟨rfl, hside⟩ | ⟨g, rfl, hg⟩
      · exact Sim.never (fun h s => by rw [h] at hside; cases hside) fun _ s => ⟨s, rfl⟩
      · refine Sim.bind (Sim.log _ _) fun _ => Sim.own hc h1 fun o ⟨o0, ho0, hof⟩ => ?_
        have hcomp : ∀ i q, o.kind ≠ .composite i q := fun i q hk => h2 o0 ho0 i q (((kind_fresh hof).1 i q).1 hk)
        have hkind : (unboxed h0 o).kind = o.kind := rfl
        rw [hkind]
        have hloc : Sim side h0 (localRun a (updWith fun o => o.recvCtrl m p)) (localRun a (updWith fun o => o.recvCtrl m p)) :=
          Sim.step hc h1 (upd_wired hc fun o w => recvCtrl_wired o w m p) (upd_fresh hc fun hw h => recvCtrl_fresh hw h) hwf
        cases hk : o.kind with
        | composite i q => exact absurd hk (hcomp i q)
        | _ => exact hloc

/-! ## Emitting -/

omit hc in
/-- A connection that leads to the operator that takes the message. -/
def turned (h0 : Nat → Option (Op V)) (c : Conn) : Conn := ⟨taker h0 c.target, c.port⟩

omit hc in
theorem find?_redirected (outs : Map (List Conn)) (p : Str) : (redirected h0 outs).find? p = (outs.find? p).map fun cs => cs.map (turned h0) := by
  induction outs with
  | nil => rfl
  | cons e outs ih =>
    obtain ⟨k, cs⟩ := e
    change Map.find? ((k, _) :: redirected h0 outs) p = _
    simp only [Map.find?, ih]
    split <;> rfl

theorem deliver_sim (hwf : HeapWF h0) {F f : Nat} (hf : Fuels side true F f) (src src' : Nat × Str) (m : Msg V) (u : Unit) (c : Conn) :
    Sim side h0 (deliver F src m u c) (deliver f src' m u (turned h0 c)) := by
  unfold deliver turned
  refine Sim.target hc c.target fun o o' hd hct => ?_
  dsimp only
  rw [hd, hct]
  split
  · exact recvData_sim hc hwf F f _ _ _ _ _ hf.any
  · split
    · exact recvCtrl_sim hc hwf F f _ _ _ _ _ hf.any
    · exact Sim.pure _

omit hc in
/-- Executing an operator is alike on both sides. -/
def ExSim (side : Bool) (h0 : Nat → Option (Op V)) (ex ex' : Bool → Nat → M (St V) (ProgMsg V)) : Prop :=
  ∀ ctrl a, Sim side h0 (ex ctrl a) (ex' ctrl (taker h0 a))

variable {ex ex' : Bool → Nat → M (St V) (ProgMsg V)}

theorem trigger_sim (hex : ExSim side h0 ex ex') (out : ProgMsg V) (c : Conn) : Sim side h0 (trigger ex out c) (trigger ex' out (turned h0 c)) := by
  unfold trigger turned
  refine Sim.target hc c.target fun o o' hd hct => ?_
  dsimp only
  rw [hd, hct]
  split
  · exact Sim.bind (hex _ _) fun _ => Sim.pure _
  · split
    · exact Sim.bind (hex _ _) fun _ => Sim.pure _
    · exact Sim.pure _

omit hc in
theorem Sim.get {α : Type} {f g : St V → M (St V) α} (h : ∀ s s', Sim side h0 (f s) (g s')) : Sim side h0 (M.get >>= f) (M.get >>= g) :=
  fun s s' hs hk => h s s' s s' hs hk

theorem emitMsg_sim (hwf : HeapWF h0) (hex : ExSim side h0 ex ex') {F f : Nat} (hf : Fuels side true F f) {a : Nat} (ha : taker h0 a = a) (port : Str)
    (m : Msg V) : Sim side h0 (emitMsg ex F a port m) (emitMsg ex' f a port m) := by
  unfold emitMsg
  refine Sim.own hc ha fun o _ => Sim.get fun t t' => Sim.bind (Sim.log _ _) fun _ => ?_
  have hid : (unboxed h0 o).core.id = o.core.id := rfl
  have hout : (unboxed h0 o).core.outputs = redirected h0 o.core.outputs := rfl
  rw [hid, hout, find?_redirected]
  dsimp only
  cases o.core.outputs.find? port with
  | none => exact Sim.pure _
  | some conns =>
    exact Sim.bind (Sim.fold conns (fun u c _ => deliver_sim hc hwf hf _ _ m u c) ()) fun _ =>
      Sim.fold conns (fun out c _ => trigger_sim hc hex out c) _

theorem emitOp_sim (hwf : HeapWF h0) (hex : ExSim side h0 ex ex') {F f : Nat} (hf : Fuels side true F f) {a : Nat} (ha : taker h0 a = a)
    (msgs : OpMsg V) : Sim side h0 (emitOp ex F a msgs) (emitOp ex' f a msgs) := by
  unfold emitOp
  refine Sim.fold_same msgs (fun b pm _ => Sim.own hc ha fun o _ => ?_) _
  have hout : (unboxed h0 o).core.outIds = o.core.outIds := rfl
  rw [hout]
  split
  · refine Sim.bind ?_ fun _ => Sim.pure _
    unfold emitPort
    exact Sim.fold_same pm.2 (fun b m _ => Sim.bind (emitMsg_sim hc hwf hex hf ha pm.1 m) fun _ => Sim.pure _) _
  · exact Sim.throw _

theorem exec_sim (hwf : HeapWF h0) (F : Nat) : ∀ (f : Nat) (ctrl : Bool) (a : Nat), Fuels side (Moved h0 a) F f →
    Sim side h0 (exec F ctrl a) (exec f ctrl (taker h0 a)) := by
  induction F with
  | zero =>
    intro f ctrl a hf
    refine Sim.never (fun _ s => ⟨s, rfl⟩) fun h s => ?_
    rcases hf.zero with h' | rfl
    · rw [h] at h'; cases h'
    · exact ⟨s, rfl⟩
  | succ F ih =>
    intro f ctrl a hf
    rcases taker_cases hc a with ⟨o, i, q, t, ho, hk, h1, h2, hi, _, _⟩ | ⟨h1, h2⟩
    · obtain ⟨j, t', hj, hj', ht, _⟩ := hc.inputs a o _ q ho hk
      cases hj
      rw [hi] at hj'
      cases hj'
      rw [moved_comp h1 h2 ho hk hi ht] at hf
      refine exec_left ho hk ?_
      have := ih f ctrl i (by rw [moved_own h2]; exact hf.left)
      rw [h2] at this
      rw [h1]
      exact this
    · rw [moved_own h1] at hf
      rw [h1]
      rcases hf.both with ⟨rfl, hside⟩ | ⟨g, rfl, hg⟩
      · exact Sim.never (fun h s => by rw [h] at hside; cases hside) fun _ s => ⟨s, rfl⟩
      · have hex : ExSim side h0 (exec F) (exec g) := fun ctrl b => ih g ctrl b hg.any
        refine Sim.bind (Sim.log _ _) fun _ => Sim.own hc h1 fun o ⟨o0, ho0, hof⟩ => ?_
        have hcomp : ∀ i q, o.kind ≠ .composite i q := fun i q hk => h2 o0 ho0 i q (((kind_fresh hof).1 i q).1 hk)
        have hkind : (unboxed h0 o).kind = o.kind := rfl
        have hto : (unboxed h0 o).core.toProcess = o.core.toProcess := rfl
        rw [hkind, hto]
        have hloc : Sim side h0 (localRun a (if ctrl then Op.execCtrl else Op.execData)) (localRun a (if ctrl then Op.execCtrl else Op.execData)) := by
          cases ctrl with
          | true => exact Sim.step hc h1 execCtrl_wired (fun o _ => execCtrl_fresh o) hwf
          | false => exact Sim.step hc h1 execData_wired (fun o _ => execData_fresh o) hwf
        have hdepth : ∀ d d' : Nat, Sim side h0 (setDepth d) (setDepth d') := fun d d' s s' hs _ => ⟨rfl, hs.shape, hs.cells, hs.still⟩
        cases hk : o.kind with
        | composite i q => exact absurd hk (hcomp i q)
        | pipeline ins outs pm =>
          dsimp only
          split
          · exact Sim.pure _
          · refine Sim.get fun t t' => Sim.bind (hdepth _ _) fun _ => Sim.bind (Sim.fold_same _ (fun b key _ => ?_) _) fun r => ?_
            · unfold pipelineStep
              cases ht : ins.find? key with
              | none => exact Sim.throw _
              | some t =>
                have htk := hc.pipes a o0 ins outs pm key t ho0 (((kind_fresh hof).2 _ _ _).1 hk) ht
                have := hex false t
                rw [htk] at this
                exact Sim.bind this fun _ => Sim.pure _
            · refine Sim.bind (hdepth _ _) fun _ => Sim.bind (Sim.step hc h1 (fun _ _ => rfl) (fun _ _ => rfl) hwf) fun _ => ?_
              split
              · exact Sim.pure _
              · exact Sim.bind (Sim.lift _) fun out => emitOp_sim hc hwf hex hg h1 out
        | _ => exact Sim.bind hloc fun out => emitOp_sim hc hwf hex hg h1 out

theorem feed_sim (hwf : HeapWF h0) {F f : Nat} (hf : Fuels side true F f) (a : Nat) (p : Str) (m : Msg V) :
    Sim side h0 (feed F a p m) (feed f (taker h0 a) p m) :=
  Sim.bind (recvData_sim hc hwf F f _ _ _ _ _ hf.any) fun _ => exec_sim hc hwf F f _ _ hf.any

end Rtbot
