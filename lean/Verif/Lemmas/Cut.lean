import Verif.Spec.Cut
import Verif.Lemmas.Copy
import Verif.Lemmas.Program
import Verif.Props.Pointwise

set_option linter.unusedSectionVars false

/-! # A program cut behind its entry -/

namespace Rtbot
namespace Cut
variable {V : Type} [Num V]
open Spec

variable {φ : Nat → Nat} {D : Nat → Prop} {a b : Nat}

/-! ## The Identity -/

theorem feedOp_snoc {p : Str} (m : Msg V) : ∀ (hist : List (Msg V)) {o q : Op V} {outs : List (OpMsg V)}, feedOp o p hist = .ok outs q →
    feedOp o p (hist ++ [m]) = match step q p m with | .ok out q' => .ok (outs ++ [out]) q' | .err e q' => .err e q' := by
  intro hist
  induction hist with
  | nil =>
    intro o q outs h
    cases h
    rw [List.nil_append]
    simp only [feedOp]
    cases step o p m <;> rfl
  | cons x hist ih =>
    intro o q outs h
    rw [List.cons_append]
    simp only [feedOp] at h ⊢
    cases hx : step o p x with
    | err e o' => rw [hx] at h; cases h
    | ok out o' =>
      rw [hx] at h
      dsimp only at h ⊢
      cases hy : feedOp o' p hist with
      | err e o'' => rw [hy] at h; cases h
      | ok outs' o'' =>
        rw [hy] at h
        cases h
        rw [ih hy]
        cases step q p m <;> rfl

theorem answers_map {g : Msg V → OpMsg V} : ∀ (ms pre : List (Msg V)), answers (fun _ m => g m) pre ms = ms.map g := by
  intro ms
  induction ms with
  | nil => intro pre; rfl
  | cons m ms ih => intro pre; rw [answers, ih]; rfl

/-- The Identity after some messages. -/
def Passing (q : Op V) : Prop := ∃ id w hist outs, feedOp (wired (Op.newIdentity id) w) i1 hist = .ok outs q

theorem passing_start (id : Str) (w : Map (List Conn)) : Passing (wired (Op.newIdentity id) w : Op V) := ⟨id, w, [], [], rfl⟩

theorem Passing.step {q : Op V} (h : Passing q) (m : Msg V) : ∃ q', step q i1 m = .ok [(o1, [m])] q' ∧ Passing q' := by
  obtain ⟨id, w, hist, outs, h⟩ := h
  obtain ⟨q', h1⟩ := (C09_identity (V := V) id).wired w (hist ++ [m])
  have h2 := h1
  rw [feedOp_snoc m hist h] at h1
  cases hs : Spec.step q i1 m with
  | err e q'' => rw [hs] at h1; cases h1
  | ok out q'' =>
    rw [hs, answers_map, List.map_append] at h1
    simp only [Res.ok.injEq] at h1
    obtain ⟨h3, rfl⟩ := h1
    have := (List.append_inj' h3 rfl).2
    cases this
    exact ⟨_, rfl, id, w, hist ++ [m], _, h2⟩

/-! ## The relation -/

theorem nexts_copied (o : Op V) : nexts (copied φ o) = (nexts o).map φ := by
  unfold nexts copied
  rw [List.map_append]
  congr 1
  · simp only [moveConns, List.flatMap_map, List.map_flatMap, List.map_map]
    rfl
  · cases o.kind <;> first | rfl | skip
    · rename_i i q; cases i <;> rfl
    · simp only [moveKind, List.map_map]
      rfl

structure Rel (φ : Nat → Nat) (D : Nat → Prop) (a b : Nat) (o q : Op V) (s s' : St V) : Prop where
  sub : Contains φ D s.heap s'.heap
  wf : HeapWF s.heap
  wf' : HeapWF s'.heap
  here : s.heap a = some o
  there : s'.heap b = some q
  notin : ¬ D a
  notin' : ∀ d, D d → φ d ≠ b
  id : q.core.id = o.core.id
  outs : q.core.outputs = moveConns φ o.core.outputs
  behind : ∀ p cs c, o.core.outputs.find? p = some cs → c ∈ cs → D c.target

/-- The addresses of the copies. -/
def Img (φ : Nat → Nat) (D : Nat → Prop) (y : Nat) : Prop := ∃ d, D d ∧ φ d = y

theorem Rel.ok {o q : Op V} {s s' : St V} (h : Rel φ D a b o q s s') : Copy.Ok φ D s s' := ⟨h.sub, fun c p _ hp => h.wf c p hp⟩

theorem Rel.ctx {o q : Op V} {s s' : St V} (h : Rel φ D a b o q s s') : Ctx D s := ⟨h.wf, fun x y hx ⟨p, hp, hy⟩ => h.sub.closed x p y hx hp hy⟩

theorem Rel.ctx' {o q : Op V} {s s' : St V} (h : Rel φ D a b o q s s') : Ctx (Img φ D) s' := by
  refine ⟨h.wf', ?_⟩
  rintro x y ⟨d, hd, rfl⟩ ⟨p, hp, hy⟩
  obtain ⟨p', h1, h2⟩ := h.sub.ops d hd
  rw [hp] at h2
  cases h2
  rw [nexts_copied] at hy
  obtain ⟨z, hz, rfl⟩ := List.mem_map.1 hy
  exact ⟨z, h.sub.closed d p' z hd h1 hz, rfl⟩

theorem outside {S : Nat → Prop} {s s' : St V} (st : Steps S s s') {x : Nat} (hx : ¬ S x) : s'.heap x = s.heap x := by
  obtain ⟨evs, _, h2, _, h4⟩ := st.trace
  exact h4 x fun e he hh => hx (hh ▸ h2 e he)

theorem Rel.moved {o q : Op V} {s s' t t' : St V} (h : Rel φ D a b o q s s') (h1 : Steps D s t) (h2 : Steps (Img φ D) s' t') (hok : Copy.Ok φ D t t') : Rel φ D a b o q t t' := by
  have e1 : t.heap a = s.heap a := outside h1 h.notin
  have hb : ¬ Img φ D b := fun ⟨d, hd, he⟩ => h.notin' d hd he
  have e2 : t'.heap b = s'.heap b := outside h2 hb
  exact ⟨hok.sub, h1.shape.wf h.wf, h2.shape.wf h.wf', e1.trans h.here, e2.trans h.there, h.notin, h.notin', h.id, h.outs, h.behind⟩

/-- The same answer, from related states to related states. -/
def Pair (R : St V → St V → Prop) : Res (St V) (ProgMsg V) → Res (St V) (ProgMsg V) → Prop
  | .ok r s, .ok r' s' => r = r' ∧ Good r ∧ R s s'
  | .err e _, .err e' _ => e = e'
  | _, _ => False

theorem conns_steps {S : Nat → Prop} (fuel : Nat) (cs : List Conn) (out : ProgMsg V) (s : St V) (hc : Ctx S s) (hS : ∀ c ∈ cs, S c.target) :
    Steps S s (M.fold (trigger (exec fuel)) cs out s).state :=
  state_fold (R := Steps S) (Steps.refl S) (fun _ _ _ => Steps.trans) cs out s fun out c s' hm hs => trigger_steps (exec_steps S fuel) out c s' (hc.step hs) (hS c hm)

theorem emit_pair {o q : Op V} {s s' : St V} (h : Rel φ D a b o q s s') (fuel : Nat) (p : Str) (m : Msg V) :
    Pair (Rel φ D a b o q) (emitMsg (exec fuel) fuel a p m s) (emitMsg (exec fuel) fuel b p m s') := by
  cases hc : o.core.outputs.find? p with
  | none =>
    have hc' : q.core.outputs.find? p = none := by rw [h.outs, Copy.find_moveConns, hc]; rfl
    rw [emitMsg_none h.here hc, emitMsg_none h.there hc', h.id]
    exact ⟨rfl, good_single _ _ _, ⟨h.sub, h.wf, h.wf', h.here, h.there, h.notin, h.notin', h.id, h.outs, h.behind⟩⟩
  | some cs =>
    have hc' : q.core.outputs.find? p = some (cs.map fun c => ⟨φ c.target, c.port⟩) := by rw [h.outs, Copy.find_moveConns, hc]; rfl
    rw [emitMsg_some h.here hc, emitMsg_some h.there hc', h.id]
    have hD : ∀ c ∈ cs, D c.target := fun c hcm => h.behind p cs c hc hcm
    have hD' : ∀ c ∈ cs.map (fun c => (⟨φ c.target, c.port⟩ : Conn)), Img φ D c.target := by
      intro c hcm
      obtain ⟨d, hd, rfl⟩ := List.mem_map.1 hcm
      exact ⟨d.target, hD d hd, rfl⟩
    have h0 : Rel φ D a b o q (s.ev (.emit s.depth a o.core.id p m)) (s'.ev (.emit s'.depth b o.core.id p m)) :=
      ⟨h.sub, h.wf, h.wf', h.here, h.there, h.notin, h.notin', h.id, h.outs, h.behind⟩
    have m1 := Copy.mv_fold (φ := φ) (S := D) (f := deliver fuel (a, p) m) (g := deliver fuel (b, p) m) cs (fun u c hcm => Copy.deliver_mv fuel (a, p) (b, p) m u c (hD c hcm)) () _ _ h0.ok
    have s1 := deliverAll_steps fuel (a, p) m cs _ h0.ctx hD
    have s1' := deliverAll_steps fuel (b, p) m _ _ h0.ctx' hD'
    cases hx : M.fold (deliver fuel (a, p) m) cs () (s.ev (.emit s.depth a o.core.id p m)) <;>
      cases hy : M.fold (deliver fuel (b, p) m) (cs.map fun c => (⟨φ c.target, c.port⟩ : Conn)) () (s'.ev (.emit s'.depth b o.core.id p m)) <;>
      rw [hx, hy] at m1 <;> first | exact m1.elim | skip
    · rename_i t1 _ t1'
      rw [hx] at s1
      rw [hy] at s1'
      have h1 := h0.moved s1 s1' m1.2
      dsimp only [Res.state] at m1 h1 ⊢
      have m2 := Copy.mv_fold (φ := φ) (S := D) (f := trigger (exec fuel)) (g := trigger (exec fuel)) cs (fun out c hcm => Copy.trigger_mv (Copy.exec_mv fuel) out c (hD c hcm))
        [(o.core.id, [(p, [m])])] _ _ h1.ok
      have s2 := conns_steps fuel cs [(o.core.id, [(p, [m])])] t1 h1.ctx hD
      have s2' := conns_steps fuel _ [(o.core.id, [(p, [m])])] t1' h1.ctx' hD'
      cases hx2 : M.fold (trigger (exec fuel)) cs [(o.core.id, [(p, [m])])] t1 <;>
        cases hy2 : M.fold (trigger (exec fuel)) (cs.map fun c => (⟨φ c.target, c.port⟩ : Conn)) [(o.core.id, [(p, [m])])] t1' <;>
        rw [hx2, hy2] at m2 <;> first | exact m2.elim | skip
      · rw [hx2] at s2
        rw [hy2] at s2'
        obtain ⟨_, _, _, hL⟩ := (trigger_run (fun c a s r s' h => exec_run fuel c a s r s' h) cs _ _ _ _ hx2).log h1.wf (good_single _ _ _)
        exact ⟨m2.1, hL.good, h1.moved s2 s2' m2.2⟩
      · exact m2.1
    · exact m1.1

/-! ## The entry -/

theorem step_fresh {o o' : Op V} (hw : o.core.WF) {p : Str} {m : Msg V} {out : OpMsg V} (h : step o p m = .ok out o') : o'.fresh = o.fresh := by
  unfold step at h
  cases h1 : o.recvData m p with
  | error e => rw [h1] at h; cases h
  | ok o1 =>
    rw [h1] at h
    dsimp only at h
    have h2 := execData_fresh o1
    rw [h] at h2
    exact h2.trans (recvData_fresh hw h1)

/-- One message for an operator that computes by itself. -/
theorem feed_simple {s : St V} {o o' : Op V} (hs : Simple o) (hw : o.core.WF) (ho : s.heap a = some o) {p : Str} {m : Msg V} {out : OpMsg V} (h : step o p m = .ok out o') (fuel : Nat) :
    ∃ s2, feed (fuel + 1) a p m s = emitOp (exec fuel) fuel a out s2 ∧ ∀ x, s2.heap x = if x = a then some o' else s.heap x := by
  unfold step at h
  cases h1 : o.recvData m p with
  | error e => rw [h1] at h; cases h
  | ok o1 =>
    rw [h1] at h
    dsimp only at h
    unfold feed
    rw [M.bind_def, recvData_simple ho hs]
    have hl : localRun a (updWith fun o => o.recvData m p) (s.ev (.recv none a p false m)) = .ok () ((s.ev (.recv none a p false m)).setOp a o1) := by
      unfold localRun
      rw [show (s.ev (.recv none a p false m)).heap a = some o from ho]
      dsimp only
      unfold updWith
      dsimp only
      rw [h1]
    rw [hl]
    dsimp only
    have ho1 : ((s.ev (.recv none a p false m)).setOp a o1).heap a = some o1 := by rw [setOp_heap, if_pos rfl]
    have hs1 : Simple o1 := (simple_of_fresh (recvData_fresh hw h1)).2 hs
    rw [exec_simple ho1 hs1]
    simp only [Bool.false_eq_true, if_false]
    rw [h]
    refine ⟨_, rfl, fun x => ?_⟩
    rw [setOp_heap]
    split
    · rfl
    · rename_i hx
      show ((s.ev (.recv none a p false m)).setOp a o1).heap x = _
      rw [setOp_heap, if_neg hx]

theorem ne_of_mem {x : Nat} (h : ¬ D a) (hx : D x) : ¬ x = a := fun e => h (e ▸ hx)

theorem Rel.left {o o' q : Op V} {s s' t : St V} (h : Rel φ D a b o q s s') (ht : ∀ x, t.heap x = if x = a then some o' else s.heap x) (hf : o'.fresh = o.fresh) : Rel φ D a b o' q t s' := by
  refine ⟨⟨h.sub.apart, ?_, ?_⟩, ?_, h.wf', by rw [ht, if_pos rfl], h.there, h.notin, h.notin', by rw [id_of_fresh hf]; exact h.id, by rw [outputs_of_fresh hf]; exact h.outs,
    by rw [outputs_of_fresh hf]; exact h.behind⟩
  · intro x hx
    rw [ht, if_neg (ne_of_mem h.notin hx)]
    exact h.sub.ops x hx
  · intro x p y hx hp hy
    rw [ht, if_neg (ne_of_mem h.notin hx)] at hp
    exact h.sub.closed x p y hx hp hy
  · intro x p hp
    rw [ht] at hp
    split at hp
    · cases hp
      exact Core.WF.of_fresh (congrArg Op.core hf) (h.wf a o h.here)
    · exact h.wf x p hp

theorem Rel.right {o q q' : Op V} {s s' t : St V} (h : Rel φ D a b o q s s') (ht : ∀ x, t.heap x = if x = b then some q' else s'.heap x) (hf : q'.fresh = q.fresh) : Rel φ D a b o q' s t := by
  refine ⟨⟨h.sub.apart, ?_, h.sub.closed⟩, h.wf, ?_, h.here, by rw [ht, if_pos rfl], h.notin, h.notin', by rw [id_of_fresh hf]; exact h.id, by rw [outputs_of_fresh hf]; exact h.outs, h.behind⟩
  · intro x hx
    rw [ht, if_neg (h.notin' x hx)]
    exact h.sub.ops x hx
  · intro x p hp
    rw [ht] at hp
    split at hp
    · cases hp
      exact Core.WF.of_fresh (congrArg Op.core hf) (h.wf' b q h.there)
    · exact h.wf' x p hp

/-- The two operators stand in the way of the cut. -/
structure Both (φ : Nat → Nat) (D : Nat → Prop) (a b : Nat) (o : Op V) (s s' : St V) : Prop where
  rel : ∃ q, Rel φ D a b o q s s' ∧ Passing q ∧ q.core.outIds.contains o1 = true ∧ Simple q
  simple : Simple o
  port : o.core.outIds.contains o1 = true

/-- One message of the entry, and the same message for the Identity. -/
theorem identity_pair {o : Op V} {s s' : St V} (h : Both φ D a b o s s') (fuel : Nat) (m : Msg V) :
    Pair (Both φ D a b o) (emitMsg (exec fuel) fuel a o1 m s) (feed (fuel + 1) b i1 m s') := by
  obtain ⟨⟨q, hr, hp, hq, hsq⟩, hs, ho⟩ := h
  obtain ⟨q', h1, h2⟩ := hp.step m
  have hf := step_fresh (hr.wf' b q hr.there) h1
  obtain ⟨t, e, ht⟩ := feed_simple hsq (hr.wf' b q hr.there) hr.there h1 fuel
  have hr' := hr.right ht hf
  have hq' : q'.core.outIds.contains o1 = true := by rw [outIds_of_fresh hf]; exact hq
  have := emit_pair hr' fuel o1 m
  rw [e]
  have e2 : emitOp (exec fuel) fuel b [(o1, [m])] t = match emitMsg (exec fuel) fuel b o1 m t with
      | .ok r u => .ok (mergeProg [] (mergeProg [] r)) u
      | .err e u => .err e u := by
    unfold emitOp
    rw [fold_cons]
    simp only [M.bind_def, getOp, hr'.there]
    rw [if_pos hq', M.bind_def]
    unfold emitPort
    rw [fold_cons]
    simp only [M.bind_def]
    cases emitMsg (exec fuel) fuel b o1 m t <;> rfl
  rw [e2]
  cases hx : emitMsg (exec fuel) fuel a o1 m s <;> cases hy : emitMsg (exec fuel) fuel b o1 m t <;> rw [hx, hy] at this <;> first | exact this.elim | skip
  · obtain ⟨rfl, hg, hrel⟩ := this
    refine ⟨?_, hg, ⟨q', hrel, h2, hq', (simple_of_fresh hf).2 hsq⟩, hs, ho⟩
    rw [merge_nil_left hg, merge_nil_left hg]
  · exact this

theorem port_pair {o : Op V} (fuel : Nat) : ∀ (ms : List (Msg V)) (x : ProgMsg V) {s s' : St V}, Good x → Both φ D a b o s s' →
    Pair (Both φ D a b o) (M.fold (fun out m => do
      let r ← emitMsg (exec fuel) fuel a o1 m
      pure (mergeProg out r)) ms x s) (feedPort (fuel + 1) b i1 ms x s') := by
  intro ms
  induction ms with
  | nil => intro x s s' hx h; exact ⟨rfl, hx, h⟩
  | cons m ms ih =>
    intro x s s' hx h
    rw [feedPort_cons, fold_cons]
    simp only [M.bind_def]
    have := identity_pair h fuel m
    cases hp : emitMsg (exec fuel) fuel a o1 m s <;> cases hq : feed (fuel + 1) b i1 m s' <;> rw [hp, hq] at this <;> first | exact this.elim | skip
    · obtain ⟨rfl, hg, hb⟩ := this
      exact ih _ (good_merge hx hg) hb
    · exact this

theorem feed_pair {o o' : Op V} {s s' : St V} (h : Both φ D a b o s s') {p : Str} {m : Msg V} {out : OpMsg V} (hs : step o p m = .ok out o') (ho : out = [] ∨ ∃ l, out = [(o1, l)]) (fuel : Nat) :
    Pair (Both φ D a b o') (feed (fuel + 1) a p m s) (feedPort (fuel + 1) b i1 (emittedOn o1 [out]) [] s') := by
  obtain ⟨⟨q, hr, hp, hq⟩, hsim, hport⟩ := h
  have hw := hr.wf a o hr.here
  have hf := step_fresh hw hs
  obtain ⟨t, e, ht⟩ := feed_simple hsim hw hr.here hs fuel
  have hr' := hr.left ht hf
  have hb : Both φ D a b o' t s' := ⟨⟨q, hr', hp, hq⟩, (simple_of_fresh hf).2 hsim, by rw [outIds_of_fresh hf]; exact hport⟩
  rw [e]
  rcases ho with rfl | ⟨l, rfl⟩
  · exact ⟨rfl, good_nil, hb⟩
  · have e1 : emittedOn o1 [[(o1, l)]] = l := by simp [emittedOn, msgsOn]
    rw [e1]
    have := port_pair fuel l [] good_nil hb
    have e2 : emitOp (exec fuel) fuel a [(o1, l)] t = match emitPort (exec fuel) fuel a o1 l t with
        | .ok r u => .ok (mergeProg [] r) u
        | .err e u => .err e u := by
      unfold emitOp
      rw [fold_cons]
      simp only [M.bind_def, getOp, hr'.here]
      rw [if_pos hb.port, M.bind_def]
      cases emitPort (exec fuel) fuel a o1 l t <;> rfl
    rw [e2]
    unfold emitPort
    cases hx : M.fold (fun out m => do
      let r ← emitMsg (exec fuel) fuel a o1 m
      pure (mergeProg out r)) l [] t <;> cases hy : feedPort (fuel + 1) b i1 l [] s' <;> rw [hx, hy] at this <;> first | exact this.elim | skip
    · obtain ⟨rfl, hg, hrel⟩ := this
      exact ⟨merge_nil_left hg, by rw [merge_nil_left hg]; exact hg, hrel⟩
    · exact this

theorem Both.wf' {o : Op V} {s s' : St V} (h : Both φ D a b o s s') : HeapWF s'.heap := by
  obtain ⟨⟨q, hr, _⟩, _⟩ := h
  exact hr.wf'

theorem feeds_pair {p : Str} (fuel : Nat) : ∀ (ms : List (Msg V)) {o o' : Op V} {out : List (OpMsg V)} (x : ProgMsg V) {s s' : St V}, Good x → Both φ D a b o s s' →
    feedOp o p ms = .ok out o' → (∀ x ∈ out, x = [] ∨ ∃ l, x = [(o1, l)]) →
    Pair (Both φ D a b o') (feedPort (fuel + 1) a p ms x s) (feedPort (fuel + 1) b i1 (emittedOn o1 out) x s') := by
  intro ms
  induction ms with
  | nil => intro o o' out x s s' hx h hf _; cases hf; exact ⟨rfl, hx, h⟩
  | cons m ms ih =>
    intro o o' out x s s' hx h hf ho
    simp only [feedOp] at hf
    cases h1 : Spec.step o p m with
    | err e o2 => rw [h1] at hf; cases hf
    | ok y o2 =>
      rw [h1] at hf
      dsimp only at hf
      cases h2 : feedOp o2 p ms with
      | err e o3 => rw [h2] at hf; cases hf
      | ok ys o3 =>
        rw [h2] at hf
        cases hf
        have hy := ho y (List.mem_cons_self ..)
        have hys := fun z hz => ho z (List.mem_cons_of_mem _ hz)
        have := feed_pair h h1 hy fuel
        have e1 : emittedOn o1 (y :: ys) = emittedOn o1 [y] ++ emittedOn o1 ys := by simp [emittedOn]
        rw [feedPort_cons, e1, feedPort_acc _ _ _ _ _ _ h.wf' hx, feedPort_append _ _ _ _ _ _ h.wf']
        cases hp : feed (fuel + 1) a p m s <;> cases hq : feedPort (fuel + 1) b i1 (emittedOn o1 [y]) [] s' <;> rw [hp, hq] at this <;> first | exact this.elim | skip
        · obtain ⟨rfl, hg, hb⟩ := this
          dsimp only
          rename_i r t t'
          have hh := ih (mergeProg x r) (good_merge hx hg) hb h2 hys
          rw [feedPort_acc (fuel + 1) b i1 (emittedOn o1 ys) (mergeProg x r) _ hb.wf' (good_merge hx hg)] at hh
          cases hz : feedPort (fuel + 1) b i1 (emittedOn o1 ys) [] t' with
          | ok r' u =>
            rw [hz] at hh
            dsimp only at hh ⊢
            obtain ⟨_, _, hL⟩ := feedPort_log (fuel + 1) b i1 (emittedOn o1 ys) [] r' t' u hb.wf' good_nil hz
            rw [merge_assoc hx hg hL.2.good] at hh
            exact hh
          | err e u =>
            rw [hz] at hh
            exact hh
        · exact this

/-! ## An entry that only hands on -/

structure Skip (φ : Nat → Nat) (D : Nat → Prop) (b c : Nat) (id port : Str) (s s' : St V) : Prop where
  sub : Contains φ D s.heap s'.heap
  wf : HeapWF s.heap
  here : ∃ q, s.heap b = some q ∧ Passing q ∧ Simple q ∧ q.core.outIds.contains o1 = true ∧ q.core.id = id ∧ q.core.outputs.find? o1 = some [⟨c, port⟩]
  there : ∃ t, s.heap c = some t ∧ t.core.isData port = true
  inside : D c
  notin : ¬ D b

theorem emitOp_one {s : St V} {o : Op V} (ho : s.heap a = some o) (hp : o.core.outIds.contains o1 = true) (fuel : Nat) (m : Msg V) :
    emitOp (exec fuel) fuel a [(o1, [m])] s = match emitMsg (exec fuel) fuel a o1 m s with
      | .ok r u => .ok (mergeProg [] (mergeProg [] r)) u
      | .err e u => .err e u := by
  unfold emitOp
  rw [fold_cons]
  simp only [M.bind_def, getOp, ho]
  rw [if_pos hp, M.bind_def]
  unfold emitPort
  rw [fold_cons]
  simp only [M.bind_def]
  cases emitMsg (exec fuel) fuel a o1 m s <;> rfl

/-- The report of the second with one message of the entry in front. -/
def Head (φ : Nat → Nat) (D : Nat → Prop) (b c : Nat) (id port : Str) (m : Msg V) : Res (St V) (ProgMsg V) → Res (St V) (ProgMsg V) → Prop
  | .ok r s, .ok r' s' => r = mergeProg [(id, [(o1, [m])])] r' ∧ Good r' ∧ Skip φ D b c id port s s'
  | .err e _, .err e' _ => e = e'
  | _, _ => False

theorem skip_feed {c : Nat} {id port : Str} {s s' : St V} (h : Skip φ D b c id port s s') (fuel : Nat) (m : Msg V) :
    Head φ D b c id port m (feed (fuel + 1) b i1 m s) (feed fuel (φ c) port m s') := by
  obtain ⟨sub, wf, ⟨q, hq, hp, hs, ho, rfl, hc⟩, ⟨t, ht, hd⟩, hin, hno⟩ := h
  obtain ⟨q', h1, h2⟩ := hp.step m
  have hf := step_fresh (wf b q hq) h1
  obtain ⟨s2, e, hs2⟩ := feed_simple hs (wf b q hq) hq h1 fuel
  have hq2 : s2.heap b = some q' := by rw [hs2, if_pos rfl]
  have hne : ¬ c = b := ne_of_mem hno hin
  have hout : ∀ x, D x → s2.heap x = s.heap x := fun x hx => by rw [hs2, if_neg (ne_of_mem hno hx)]
  have sub2 : Contains φ D s2.heap s'.heap :=
    ⟨sub.apart, fun x hx => by rw [hout x hx]; exact sub.ops x hx, fun x o y hx hxo hy => sub.closed x o y hx (by rw [← hout x hx]; exact hxo) hy⟩
  have wf2 : HeapWF s2.heap := by
    intro x o hx
    rw [hs2] at hx
    split at hx
    · cases hx
      exact Core.WF.of_fresh (congrArg Op.core hf) (wf b q hq)
    · exact wf x o hx
  have hid := id_of_fresh hf
  have hcs : q'.core.outputs.find? o1 = some [⟨c, port⟩] := by rw [outputs_of_fresh hf]; exact hc
  have hport : q'.core.outIds.contains o1 = true := by rw [outIds_of_fresh hf]; exact ho
  rw [e, emitOp_one hq2 hport, emitMsg_some hq2 hcs, hid]
  -- the state in which the message is handed on
  generalize hs3 : s2.ev (.emit s2.depth b q.core.id o1 m) = s3
  have heap3 : s3.heap = s2.heap := hs3 ▸ rfl
  have ok3 : Copy.Ok φ D s3 s' := ⟨by rw [heap3]; exact sub2, fun x o _ hx => wf2 x o (by rw [← heap3]; exact hx)⟩
  have ctx3 : Ctx D s3 := ⟨by rw [heap3]; exact wf2, fun x y hx ⟨o, hxo, hy⟩ => ok3.sub.closed x o y hx hxo hy⟩
  have ht3 : s3.heap c = some t := by rw [heap3, hout c hin]; exact ht
  have hD : ∀ k ∈ ([⟨c, port⟩] : List Conn), D k.target := by
    intro k hk
    rw [List.mem_singleton.1 hk]
    exact hin
  have d1 : M.fold (deliver fuel (b, o1) m) [⟨c, port⟩] () s3 = recvData fuel (some (b, o1)) c m port s3 := by
    rw [fold_cons]
    unfold deliver
    simp only [M.bind_def, getOp, ht3]
    rw [if_pos hd]
    cases recvData fuel (some (b, o1)) c m port s3 <;> rfl
  have st1 := deliverAll_steps fuel (b, o1) m [⟨c, port⟩] s3 ctx3 hD
  have m1 := Copy.recvData_mv fuel (some (b, o1)) none c m port hin s3 s' ok3
  unfold feed
  rw [M.bind_def]
  rw [d1] at st1 ⊢
  cases hx : recvData fuel (some (b, o1)) c m port s3 <;> cases hy : recvData fuel none (φ c) m port s' <;> rw [hx, hy] at m1 <;> first | exact m1.elim | skip
  · rename_i t1 _ t1'
    rw [hx] at st1
    dsimp only [Res.state] at st1 ⊢
    have ok4 := m1.2
    have ctx4 := ctx3.step st1
    obtain ⟨tt, ht4, hfr⟩ := st1.shape.get ht3
    have hd4 : tt.core.isData port = true := by rw [isData_of_fresh hfr]; exact hd
    have d2 : M.fold (trigger (exec fuel)) [⟨c, port⟩] [(q.core.id, [(o1, [m])])] t1 = match exec fuel false c t1 with
        | .ok r u => .ok (mergeProg [(q.core.id, [(o1, [m])])] r) u
        | .err e u => .err e u := by
      rw [fold_cons]
      unfold trigger
      simp only [M.bind_def, getOp, ht4]
      rw [if_pos hd4, M.bind_def]
      cases exec fuel false c t1 <;> rfl
    have st2 := conns_steps fuel [⟨c, port⟩] [(q.core.id, [(o1, [m])])] t1 ctx4 hD
    have m2 := Copy.exec_mv fuel false c hin t1 t1' ok4
    rw [d2] at st2 ⊢
    cases hx2 : exec fuel false c t1 <;> cases hy2 : exec fuel false (φ c) t1' <;> rw [hx2, hy2] at m2 <;> first | exact m2.elim | skip
    · rw [hx2] at st2
      dsimp only [Res.state] at st2
      obtain ⟨rfl, ok5⟩ := m2
      obtain ⟨_, _, _, hL⟩ := (exec_run fuel false c _ _ _ hx2).log ctx4.wf good_nil
      have hg := hL.good
      have hm := good_merge (good_single q.core.id o1 m) hg
      obtain ⟨tt5, ht5, hfr5⟩ := st2.shape.get ht4
      refine ⟨?_, hg, ok5.sub, (ctx4.step st2).wf, ⟨q', ?_, h2, (simple_of_fresh hf).2 hs, hport, hid, hcs⟩, ⟨tt5, ht5, ?_⟩, hin, hno⟩
      · rw [merge_nil_left hm, merge_nil_left hm]
      · rw [outside st2 hno, outside st1 hno, heap3]
        exact hq2
      · rw [isData_of_fresh hfr5]; exact hd4
    · exact m2.1
  · exact m1.1

/-- The reports agree about all other operators. -/
def Agree (id : Str) (r r' : ProgMsg V) : Prop := ∀ id', id' ≠ id → ∀ p, listed r id' p = listed r' id' p

def HeadPair (φ : Nat → Nat) (D : Nat → Prop) (b c : Nat) (id port : Str) : Res (St V) (ProgMsg V) → Res (St V) (ProgMsg V) → Prop
  | .ok r s, .ok r' s' => Agree id r r' ∧ Skip φ D b c id port s s'
  | .err e _, .err e' _ => e = e'
  | _, _ => False

theorem skip_feeds {c : Nat} {id port : Str} (fuel : Nat) : ∀ (ms : List (Msg V)) (x x' : ProgMsg V) {s s' : St V}, Agree id x x' → Skip φ D b c id port s s' →
    HeadPair φ D b c id port (feedPort (fuel + 1) b i1 ms x s) (feedPort fuel (φ c) port ms x' s') := by
  intro ms
  induction ms with
  | nil => intro x x' s s' hx h; exact ⟨hx, h⟩
  | cons m ms ih =>
    intro x x' s s' hx h
    rw [feedPort_cons, feedPort_cons]
    have := skip_feed h fuel m
    cases hp : feed (fuel + 1) b i1 m s <;> cases hq : feed fuel (φ c) port m s' <;> rw [hp, hq] at this <;> first | exact this.elim | skip
    · obtain ⟨rfl, hg, hb⟩ := this
      refine ih _ _ (fun id' hid p => ?_) hb
      rw [listed_merge (good_merge (good_single _ _ _) hg), listed_merge hg, listed_merge hg, listed_single, if_neg (fun h => hid h.1.symm), hx id' hid p, List.nil_append]
    · exact this

end Cut
end Rtbot
