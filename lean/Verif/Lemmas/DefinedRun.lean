import Verif.Lemmas.Defined

set_option linter.unusedSectionVars false

/-! # Calls are defined -/

namespace Rtbot
variable {V : Type} [Num V]
open Spec

/-! ## The static part -/

theorem mem_fresh {m m' : Map (Inp V)} (h : freshMap m' = freshMap m) {e : Str × Inp V} (he : e ∈ m') :
    ∃ e0 ∈ m, e0.1 = e.1 ∧ e0.2.max = e.2.max := by
  have : (e.1, e.2.fresh) ∈ freshMap m := by rw [← h]; exact List.mem_map.2 ⟨e, he, rfl⟩
  obtain ⟨e0, h1, h2⟩ := List.mem_map.1 this
  simp only [Prod.mk.injEq] at h2
  exact ⟨e0, h1, h2.1, (congrArg Inp.max h2.2 : e0.2.fresh.max = e.2.fresh.max)⟩

theorem hasCtrl_of_fresh {o o' : Op V} (h : o'.fresh = o.fresh) (p : Str) : o'.core.ctrlIn.has p = o.core.ctrlIn.has p := by
  have h1 : freshMap o'.core.ctrlIn = freshMap o.core.ctrlIn := congrArg (fun x : Op V => x.core.ctrlIn) h
  have h2 : ∀ m : Map (Inp V), (freshMap m).has p = m.has p := fun m => has_map _ m p
  rw [← h2, h1, h2]

theorem Sound.of_fresh {o o' : Op V} (h : o'.fresh = o.fresh) (hs : Sound o) : Sound o' := by
  have hd : freshMap o'.core.dataIn = freshMap o.core.dataIn := congrArg (fun x : Op V => x.core.dataIn) h
  have hc : freshMap o'.core.ctrlIn = freshMap o.core.ctrlIn := congrArg (fun x : Op V => x.core.ctrlIn) h
  have hk : o'.kind.fresh = o.kind.fresh := congrArg Op.kind h
  refine ⟨fun e he => ?_, fun e he => ?_, ?_, fun pm last ho p hp => ?_, fun pm ho p hp => ?_, fun pm ho p hp => ?_, fun pm ho p hp => ?_,
    fun ps t ho => ?_, fun as ho => ?_⟩
  · obtain ⟨e0, h1, _, h2⟩ := mem_fresh hd he
    rw [← h2]; exact hs.data e0 h1
  · obtain ⟨e0, h1, _, h2⟩ := mem_fresh hc he
    rw [← h2]; exact hs.ctrl e0 h1
  · have := hs.tame
    unfold Tame at this ⊢
    cases hx : o.kind <;> cases hy : o'.kind <;> rw [hx, hy] at hk <;> simp [Kind.fresh] at hk <;> simp only [hx] at this <;>
      first | trivial | exact this.elim | (subst hk; exact this)
  · rw [ho] at hk
    cases hx : o.kind <;> rw [hx] at hk <;> simp [Kind.fresh] at hk
    subst hk
    exact hs.input _ _ hx p (by rw [← has_of_fresh h]; exact hp)
  · rw [ho] at hk
    cases hx : o.kind <;> rw [hx] at hk <;> simp [Kind.fresh] at hk
    subst hk
    exact hs.output _ hx p (by rw [← has_of_fresh h]; exact hp)
  · rw [ho] at hk
    cases hx : o.kind <;> rw [hx] at hk <;> simp [Kind.fresh] at hk
    subst hk
    exact hs.join _ hx p (by rw [← has_of_fresh h]; exact hp)
  · rw [ho] at hk
    cases hx : o.kind <;> rw [hx] at hk <;> simp [Kind.fresh] at hk
    subst hk
    exact hs.demux _ hx p (by rw [← hasCtrl_of_fresh h]; exact hp)
  · rw [ho] at hk
    cases hx : o.kind <;> rw [hx] at hk <;> simp [Kind.fresh] at hk
    obtain ⟨rfl, rfl⟩ := hk
    exact hs.points _ _ hx
  · rw [ho] at hk
    cases hx : o.kind <;> rw [hx] at hk <;> simp [Kind.fresh] at hk
    subst hk
    obtain ⟨i, h1, h2⟩ := hs.coeff _ hx
    rw [h1] at hd
    have hl := congrArg List.length hd
    simp only [freshMap, List.length_map, List.length_cons, List.length_nil, Nat.zero_add] at hl
    obtain ⟨e, he⟩ := List.length_eq_one_iff.1 hl
    obtain ⟨k, i'⟩ := e
    rw [he] at hd
    simp only [freshMap, List.map_cons, List.map_nil, List.cons.injEq, Prod.mk.injEq, and_true] at hd
    refine ⟨i', by rw [he, hd.1], ?_⟩
    rw [← h2]
    exact (congrArg Inp.max hd.2 : i'.fresh.max = i.fresh.max)

/-- The operator is an AutoRegressive. -/
def IsAR (o : Op V) : Prop := ∃ as, o.kind = .autoReg as

theorem isAR_of_fresh {o o' : Op V} (h : o'.fresh = o.fresh) (ha : IsAR o') : IsAR o := by
  obtain ⟨as, ho⟩ := ha
  have hk : o'.kind.fresh = o.kind.fresh := congrArg Op.kind h
  rw [ho] at hk
  cases hx : o.kind <;> rw [hx] at hk <;> simp [Kind.fresh] at hk
  exact ⟨_, hx⟩

/-- What must hold of the operators of a program, whatever they have received. -/
structure Ground (h0 : Nat → Option (Op V)) : Prop where
  wf : HeapWF h0
  sound : ∀ b o, h0 b = some o → Sound o
  plain : ∀ b o, h0 b = some o → ∀ i q, o.kind ≠ .composite i q
  conns : ∀ b o, h0 b = some o → ∀ p cs, o.core.outputs.find? p = some cs → ∀ c ∈ cs, ∃ t, h0 c.target = some t
  pipes : ∀ b o, h0 b = some o → ∀ ins outs pm, o.kind = .pipeline ins outs pm → ∀ k t, ins.find? k = some t → ∃ ot, h0 t = some ot ∧ ¬ IsAR ot

/-! ## The dynamic part -/

/-- The operators have the shape they have in `h0`, and AutoRegressives have the stock `c` speaks of. -/
structure Live (h0 : Nat → Option (Op V)) (c : Nat → Nat) (s : St V) : Prop where
  shape : SameShape h0 s.heap
  stock : ∀ b o, s.heap b = some o → Stocked (c b) o

/-- The computation is defined, and takes the stock from `c` to `c'`. -/
def Dk (h0 : Nat → Option (Op V)) (c c' : Nat → Nat) {α : Type} (x : M (St V) α) : Prop :=
  ∀ s, Live h0 c s → match x s with
    | .ok _ s' => Live h0 c' s'
    | .err e s' => (∀ u, e ≠ .ub u) ∧ Live h0 (fun _ => 0) s'

/-- One unit for one operator. -/
def one (a b : Nat) : Nat := if b = a then 1 else 0

variable {h0 : Nat → Option (Op V)} {c c' c'' : Nat → Nat}

theorem Live.mono {s : St V} (h : Live h0 c s) (hc : ∀ b, c' b ≤ c b) : Live h0 c' s :=
  ⟨h.shape, fun b o ho => (h.stock b o ho).mono (hc b)⟩

theorem Live.zero {s : St V} (h : Live h0 c s) : Live h0 (fun _ => 0) s := h.mono fun _ => Nat.zero_le _

/-- The stock of other operators does not matter. -/
theorem Live.free {s : St V} (h : Live h0 c s) {a : Nat} (ha : ∀ o, h0 a = some o → ¬ IsAR o) (hc : ∀ b, b ≠ a → c' b ≤ c b) : Live h0 c' s := by
  refine ⟨h.shape, fun b o ho => ?_⟩
  by_cases hb : b = a
  · subst hb
    intro as hk
    obtain ⟨o0, h1, h2⟩ := h.shape.get' ho
    exact absurd (isAR_of_fresh h2.symm ⟨as, hk⟩) (ha o0 h1)
  · exact (h.stock b o ho).mono (hc b hb)

theorem dk_pre {α : Type} {x : M (St V) α} (h : Dk h0 c' c'' x) (hc : ∀ s, Live h0 c s → Live h0 c' s) : Dk h0 c c'' x :=
  fun s hs => h s (hc s hs)

theorem dk_post {α : Type} {x : M (St V) α} (h : Dk h0 c c' x) (hc : ∀ s, Live h0 c' s → Live h0 c'' s) : Dk h0 c c'' x := by
  intro s hs
  have := h s hs
  cases hx : x s with
  | ok a s' => rw [hx] at this; exact hc s' this
  | err e s' => rw [hx] at this; exact this

theorem dk_pure {α : Type} (a : α) : Dk h0 c c (pure a : M (St V) α) := fun _ h => h

theorem dk_exc {α : Type} (e : Exc) : Dk h0 c c' (M.throw (.exc e) : M (St V) α) := fun _ h => ⟨fun _ h => (by cases h), h.zero⟩

theorem dk_div {α : Type} : Dk h0 c c' (M.throw .diverge : M (St V) α) := fun _ h => ⟨fun _ h => (by cases h), h.zero⟩

theorem dk_lift {α : Type} {x : Except Err α} (h : Def T x) : Dk h0 c c (M.lift x : M (St V) α) := by
  intro s hs
  cases x with
  | ok a => exact hs
  | error e => exact ⟨h, hs.zero⟩

theorem dk_bind {α β : Type} {x : M (St V) α} {f : α → M (St V) β} (h : Dk h0 c c' x) (hf : ∀ a, Dk h0 c' c'' (f a)) : Dk h0 c c'' (x >>= f) := by
  intro s hs
  have h1 := h s hs
  simp only [bind, M.bind]
  cases hx : x s with
  | ok a s' => rw [hx] at h1; exact hf a s' h1
  | err e s' => rw [hx] at h1; exact h1

theorem dk_fold {α β : Type} {f : β → α → M (St V) β} (l : List α) (hf : ∀ b, ∀ a ∈ l, Dk h0 c c (f b a)) : ∀ b, Dk h0 c c (M.fold f l b) := by
  induction l with
  | nil => intro b; exact dk_pure b
  | cons x l ih => intro b; exact dk_bind (hf b x (by simp)) fun b' => ih (fun b a ha => hf b a (List.mem_cons_of_mem _ ha)) b'

theorem dk_log (e : Ev V) : Dk h0 c c (logEv e) := fun _ h => ⟨h.shape, h.stock⟩

theorem dk_depth (d : Nat) : Dk h0 c c (setDepth d : M (St V) Unit) := fun _ h => ⟨h.shape, h.stock⟩

theorem dk_state : Dk h0 c c (M.get : M (St V) (St V)) := fun _ h => h

/-- Reading an operator. -/
theorem dk_get {α : Type} {a : Nat} (ha : ∃ o, h0 a = some o) {f : Op V → M (St V) α} (hf : ∀ o o0, h0 a = some o0 → o.fresh = o0.fresh → Dk h0 c c' (f o)) :
    Dk h0 c c' (getOp a >>= f) := by
  intro s hs
  obtain ⟨o0, ho0⟩ := ha
  obtain ⟨o, ho, hf'⟩ := hs.shape.get ho0
  simp only [bind, M.bind, getOp, ho]
  exact hf o o0 ho0 hf' s hs

theorem Live.set {s : St V} (h : Live h0 c s) {a : Nat} {o o' : Op V} (ho : s.heap a = some o) (hf : o'.fresh = o.fresh) (hst : Stocked (c' a) o')
    (hc : ∀ b, b ≠ a → c' b ≤ c b) : Live h0 c' (s.setOp a o') := by
  refine ⟨fun b => ?_, fun b p hb => ?_⟩
  · unfold St.setOp
    dsimp only
    split
    · rename_i hb
      subst hb
      rw [← h.shape b, ho]
      simp [hf]
    · exact h.shape b
  · unfold St.setOp at hb
    dsimp only at hb
    split at hb
    · rename_i hba
      subst hba
      cases hb
      exact hst
    · rename_i hba
      exact (h.stock b p hb).mono (hc b hba)

/-- Running a method of one object. -/
theorem dk_run {α : Type} {a : Nat} (ha : ∃ o, h0 a = some o) {f : Op V → Res (Op V) α} (hc : ∀ b, b ≠ a → c' b ≤ c b)
    (hf : ∀ o o0, h0 a = some o0 → o.fresh = o0.fresh → Stocked (c a) o → DefR (f o) ∧ (f o).state.fresh = o.fresh ∧
      Stocked (match f o with | .ok _ _ => c' a | .err _ _ => 0) (f o).state) :
    Dk h0 c c' (localRun a f) := by
  intro s hs
  obtain ⟨o0, ho0⟩ := ha
  obtain ⟨o, ho, hfr⟩ := hs.shape.get ho0
  obtain ⟨h1, h2, h3⟩ := hf o o0 ho0 hfr (hs.stock a o ho)
  unfold localRun
  rw [ho]
  dsimp only
  cases hx : f o with
  | ok x o' => rw [hx] at h2 h3; exact hs.set ho h2 h3 hc
  | err e o' => rw [hx] at h1 h2 h3; exact ⟨h1, hs.set (c' := fun _ => 0) ho h2 h3 fun _ _ => Nat.zero_le _⟩

theorem dk_upd {a : Nat} (ha : ∃ o, h0 a = some o) (hg : Ground h0) {g : Op V → Except Err (Op V)} (hc : ∀ b, b ≠ a → c' b ≤ c b)
    (hf : ∀ o, Sound o → o.core.WF → Stocked (c a) o → Def (fun o' => o'.fresh = o.fresh ∧ Stocked (c' a) o') (g o)) :
    Dk h0 c c' (localRun a (updWith g)) := by
  refine dk_run ha hc fun o o0 ho0 hfr hst => ?_
  have := hf o ((hg.sound a o0 ho0).of_fresh hfr) (Core.WF.of_fresh (congrArg Op.core hfr) (hg.wf a o0 ho0)) hst
  unfold updWith
  cases hx : g o with
  | ok o' => rw [hx] at this; exact ⟨trivial, this.1, this.2⟩
  | error e => rw [hx] at this; exact ⟨this, rfl, hst.mono (Nat.zero_le _)⟩

theorem kind_pipeline_of_fresh {o o' : Op V} (h : o'.fresh = o.fresh) {ins outs : Map Nat} {pm : Map Str} (hk : o'.kind = .pipeline ins outs pm) :
    o.kind = .pipeline ins outs pm := by
  have hf : o'.kind.fresh = o.kind.fresh := congrArg Op.kind h
  rw [hk] at hf
  cases hx : o.kind <;> rw [hx] at hf <;> simp [Kind.fresh] at hf
  obtain ⟨rfl, rfl, rfl⟩ := hf
  rfl

theorem kind_composite_of_fresh {o o' : Op V} (h : o'.fresh = o.fresh) {i q : Option Nat} (hk : o'.kind = .composite i q) :
    o.kind = .composite i q := by
  have hf : o'.kind.fresh = o.kind.fresh := congrArg Op.kind h
  rw [hk] at hf
  cases hx : o.kind <;> rw [hx] at hf <;> simp [Kind.fresh] at hf
  obtain ⟨rfl, rfl⟩ := hf
  rfl

theorem def_and {α : Type} {x : Except Err α} {Q : α → Prop} (h : Def T x) (hq : ∀ a, x = .ok a → Q a) : Def Q x := by
  cases x with
  | ok a => exact hq a rfl
  | error e => exact h

theorem df_pipelinePort (ins : Map Nat) (pm : Map Str) (p : Str) : Def T (pipelinePort ins pm p) := by
  unfold pipelinePort
  split
  · split
    · exact df_t _
    · exact df_exc _
  · split
    · exact df_t _
    · exact df_exc _

theorem df_pipelineOutput (outs : Map Nat) (pm : Map Str) (l : List (Str × Str × PortMsg V)) : ∀ out, Def T (pipelineOutput outs pm l out) := by
  induction l with
  | nil => intro out; exact df_t _
  | cons e l ih =>
    obtain ⟨id, port, v⟩ := e
    intro out
    rw [pipelineOutput]
    split
    · split
      · exact ih _
      · exact df_exc _
    · exact ih _

theorem not_ar_pipeline {o : Op V} {ins outs : Map Nat} {pm : Map Str} (h : o.kind = .pipeline ins outs pm) : ¬ IsAR o := by
  rintro ⟨as, ha⟩
  rw [h] at ha
  cases ha

/-- Receiving gives the operator one unit. -/
theorem dk_recvData (hg : Ground h0) (fuel : Nat) : ∀ (c : Nat → Nat) (frm : Option (Nat × Str)) (a : Nat) (m : Msg V) (p : Str), (∃ o, h0 a = some o) →
    Dk h0 c (fun b => c b + one a b) (recvData fuel frm a m p) := by
  induction fuel with
  | zero => intro c frm a m p _; exact dk_div
  | succ fuel ih =>
    intro c frm a m p ha
    unfold recvData
    refine dk_bind (dk_log _) fun _ => dk_get ha fun o o0 ho0 hfr => ?_
    have hsimple : Dk h0 c (fun b => c b + one a b) (localRun a (updWith fun o => o.recvData m p)) := by
      refine dk_upd ha hg (fun b hb => by simp [one, hb]) fun o hs hw hst => ?_
      refine def_and (df_recvData hs m p) fun o' hr => ⟨recvData_fresh hw hr, ?_⟩
      have : c a + one a a = c a + 1 := by simp [one]
      rw [this]
      exact recvData_stock hs hst hr
    cases hk : o.kind <;> (try dsimp only) <;> first | exact hsimple | skip
    · exact absurd (kind_composite_of_fresh hfr hk) (hg.plain a o0 ho0 _ _)
    · rename_i ins outs pm
      have hk0 := kind_pipeline_of_fresh hfr hk
      refine dk_bind (dk_lift (df_pipelinePort _ _ _)) fun key => ?_
      split
      · exact dk_exc _
      · rename_i t ht
        obtain ⟨ot, h1, h2⟩ := hg.pipes a o0 ho0 ins outs pm hk0 key t ht
        refine dk_bind (c' := c) (dk_post (ih c none t m _ ⟨ot, h1⟩) fun s hs => hs.mono fun b => by omega) fun _ => ?_
        refine dk_run ha (fun b hb => by simp [one, hb]) fun o1 o01 h3 h4 hst => ⟨trivial, rfl, ?_⟩
        intro as hk1
        rw [ho0] at h3
        cases h3
        exact absurd (isAR_of_fresh h4 ⟨as, hk1⟩) (not_ar_pipeline hk0)

theorem dk_recvCtrl (hg : Ground h0) (fuel : Nat) (c : Nat → Nat) (frm : Option (Nat × Str)) (a : Nat) (m : Msg V) (p : Str) (ha : ∃ o, h0 a = some o) :
    Dk h0 c c (recvCtrl fuel frm a m p) := by
  cases fuel with
  | zero => exact dk_div
  | succ fuel =>
    unfold recvCtrl
    refine dk_bind (dk_log _) fun _ => dk_get ha fun o o0 ho0 hfr => ?_
    have hsimple : Dk h0 c c (localRun a (updWith fun o => o.recvCtrl m p)) := by
      refine dk_upd ha hg (fun b hb => Nat.le_refl _) fun o hs hw hst => ?_
      exact def_and (df_recvCtrl hs m p) fun o' hr => ⟨recvCtrl_fresh hw hr, recvCtrl_stock hst hr⟩
    cases hk : o.kind <;> (try dsimp only) <;> first | exact hsimple | skip
    exact absurd (kind_composite_of_fresh hfr hk) (hg.plain a o0 ho0 _ _)

/-! ## emit -/

/-- What a connection will give. -/
def pay (h0 : Nat → Option (Op V)) (x : Conn) (b : Nat) : Nat :=
  match h0 x.target with
  | some o => if o.core.isData x.port then one x.target b else 0
  | none => 0

theorem dk_deliver (hg : Ground h0) (fuel : Nat) (src : Nat × Str) (m : Msg V) (u : Unit) (x : Conn) (hx : ∃ o, h0 x.target = some o) (c : Nat → Nat) :
    Dk h0 c (fun b => c b + pay h0 x b) (deliver fuel src m u x) := by
  unfold deliver
  refine dk_get hx fun o o0 ho0 hfr => ?_
  rw [isData_of_fresh hfr]
  by_cases hd : o0.core.isData x.port = true
  · rw [if_pos hd]
    have : (fun b => c b + pay h0 x b) = fun b => c b + one x.target b := by funext b; simp [pay, ho0, hd]
    rw [this]
    exact dk_recvData hg fuel c _ _ _ _ hx
  · rw [if_neg hd]
    have : (fun b => c b + pay h0 x b) = c := by funext b; simp [pay, ho0, hd]
    rw [this]
    split
    · exact dk_recvCtrl hg fuel c _ _ _ _ hx
    · exact dk_pure _

/-- What a list of connections will give. -/
def pays (h0 : Nat → Option (Op V)) (l : List Conn) (b : Nat) : Nat := (l.map fun x => pay h0 x b).sum

theorem dk_deliverAll (hg : Ground h0) (fuel : Nat) (src : Nat × Str) (m : Msg V) (l : List Conn) (hl : ∀ x ∈ l, ∃ o, h0 x.target = some o) :
    ∀ (c : Nat → Nat) (u : Unit), Dk h0 c (fun b => c b + pays h0 l b) (M.fold (deliver fuel src m) l u) := by
  induction l with
  | nil => intro c u; have : (fun b => c b + pays h0 [] b) = c := by funext b; simp [pays]
           rw [this]; exact dk_pure _
  | cons x l ih =>
    intro c u
    have : (fun b => c b + pays h0 (x :: l) b) = fun b => (c b + pay h0 x b) + pays h0 l b := by
      funext b; simp only [pays, List.map_cons, List.sum_cons]; omega
    rw [this]
    exact dk_bind (dk_deliver hg fuel src m u x (hl x (by simp)) c) fun u' => ih (fun y hy => hl y (List.mem_cons_of_mem _ hy)) _ u'

/-- What is known of the executions of operators. -/
def Works (h0 : Nat → Option (Op V)) (ex : Bool → Nat → M (St V) (ProgMsg V)) : Prop :=
  ∀ a, (∃ o, h0 a = some o) → ∀ c, Dk h0 (fun b => c b + one a b) c (ex false a) ∧ Dk h0 c c (ex true a)

theorem dk_trigger {ex : Bool → Nat → M (St V) (ProgMsg V)} (hex : Works h0 ex) (out : ProgMsg V) (x : Conn) (hx : ∃ o, h0 x.target = some o)
    (c : Nat → Nat) : Dk h0 (fun b => c b + pay h0 x b) c (trigger ex out x) := by
  unfold trigger
  refine dk_get hx fun o o0 ho0 hfr => ?_
  rw [isData_of_fresh hfr]
  by_cases hd : o0.core.isData x.port = true
  · rw [if_pos hd]
    have : (fun b => c b + pay h0 x b) = fun b => c b + one x.target b := by funext b; simp [pay, ho0, hd]
    rw [this]
    exact dk_bind (hex _ hx c).1 fun _ => dk_pure _
  · rw [if_neg hd]
    have : (fun b => c b + pay h0 x b) = c := by funext b; simp [pay, ho0, hd]
    rw [this]
    split
    · exact dk_bind (hex _ hx c).2 fun _ => dk_pure _
    · exact dk_pure _

theorem dk_triggerAll {ex : Bool → Nat → M (St V) (ProgMsg V)} (hex : Works h0 ex) (l : List Conn) (hl : ∀ x ∈ l, ∃ o, h0 x.target = some o)
    (c : Nat → Nat) : ∀ out, Dk h0 (fun b => c b + pays h0 l b) c (M.fold (trigger ex) l out) := by
  induction l with
  | nil => intro out; have : (fun b => c b + pays h0 [] b) = c := by funext b; simp [pays]
           rw [this]; exact dk_pure _
  | cons x l ih =>
    intro out
    have : (fun b => c b + pays h0 (x :: l) b) = fun b => (c b + pays h0 l b) + pay h0 x b := by
      funext b; simp only [pays, List.map_cons, List.sum_cons]; omega
    rw [this]
    exact dk_bind (dk_trigger hex out x (hl x (by simp)) _) fun out' => ih (fun y hy => hl y (List.mem_cons_of_mem _ hy)) out'

theorem dk_emitMsg (hg : Ground h0) {ex : Bool → Nat → M (St V) (ProgMsg V)} (hex : Works h0 ex) (fuel : Nat) {a : Nat} (ha : ∃ o, h0 a = some o)
    (port : Str) (m : Msg V) : Dk h0 c c (emitMsg ex fuel a port m) := by
  unfold emitMsg
  refine dk_get ha fun o o0 ho0 hfr => dk_bind dk_state fun s => dk_bind (dk_log _) fun _ => ?_
  have hout := outputs_of_fresh hfr
  dsimp only
  split
  · exact dk_pure _
  · rename_i conns hcn
    have hl : ∀ x ∈ conns, ∃ o, h0 x.target = some o := hg.conns a o0 ho0 port conns (by rw [← hout]; exact hcn)
    exact dk_bind (dk_deliverAll hg fuel _ m conns hl c ()) fun _ => dk_triggerAll hex conns hl c _

theorem dk_emitOp (hg : Ground h0) {ex : Bool → Nat → M (St V) (ProgMsg V)} (hex : Works h0 ex) (fuel : Nat) {a : Nat} (ha : ∃ o, h0 a = some o)
    (msgs : OpMsg V) : Dk h0 c c (emitOp ex fuel a msgs) := by
  refine dk_fold _ (fun out pm _ => dk_get ha fun o o0 ho0 hfr => ?_) _
  split
  · exact dk_bind (dk_fold _ (fun out m _ => dk_bind (dk_emitMsg hg hex fuel ha _ _) fun _ => dk_pure _) _) fun _ => dk_pure _
  · exact dk_exc _

theorem works_exec (hg : Ground h0) (fuel : Nat) : Works h0 (exec fuel) := by
  induction fuel with
  | zero => intro a _ c; exact ⟨dk_div, dk_div⟩
  | succ fuel ih =>
    intro a ha c
    have hdata : ∀ o o0, h0 a = some o0 → o.fresh = o0.fresh → Sound o ∧ o.core.WF := fun o o0 ho0 hfr =>
      ⟨(hg.sound a o0 ho0).of_fresh hfr, Core.WF.of_fresh (congrArg Op.core hfr) (hg.wf a o0 ho0)⟩
    have hfreshD : ∀ o : Op V, o.core.WF → o.execData.state.fresh = o.fresh := fun o hw => by
      have := act_fresh o hw .execData
      simp only [act] at this
      cases h : o.execData <;> rw [h] at this <;> exact this
    have hfreshC : ∀ o : Op V, o.core.WF → o.execCtrl.state.fresh = o.fresh := fun o hw => by
      have := act_fresh o hw .execCtrl
      simp only [act] at this
      cases h : o.execCtrl <;> rw [h] at this <;> exact this
    have hD : Dk h0 (fun b => c b + one a b) c (localRun a Op.execData) := by
      refine dk_run ha (fun b hb => by simp) fun o o0 ho0 hfr hst => ?_
      obtain ⟨h1, h2⟩ := hdata o o0 ho0 hfr
      have h3 := execData_stock h1 h2 (c := c a) (by simpa [one] using hst)
      refine ⟨h3.1, hfreshD o h2, ?_⟩
      split
      · exact h3.2
      · exact h3.2.mono (Nat.zero_le _)
    have hC : Dk h0 c c (localRun a Op.execCtrl) := by
      refine dk_run ha (fun b hb => Nat.le_refl _) fun o o0 ho0 hfr hst => ?_
      obtain ⟨h1, h2⟩ := hdata o o0 ho0 hfr
      have h3 := execCtrl_stock h1 h2 hst
      refine ⟨h3.1, hfreshC o h2, ?_⟩
      split
      · exact h3.2
      · exact h3.2.mono (Nat.zero_le _)
    constructor
    · unfold exec
      refine dk_bind (dk_log _) fun _ => dk_get ha fun o o0 ho0 hfr => ?_
      have hsimple : Dk h0 (fun b => c b + one a b) c (do
          let out ← localRun a (if false = true then Op.execCtrl else Op.execData)
          emitOp (exec fuel) fuel a out) := by
        simp only [Bool.false_eq_true, if_false]
        exact dk_bind hD fun out => dk_emitOp hg ih fuel ha out
      cases hk : o.kind <;> (try dsimp only) <;> first | exact hsimple | skip
      · exact absurd (kind_composite_of_fresh hfr hk) (hg.plain a o0 ho0 _ _)
      · rename_i ins outs pm
        have hk0 := kind_pipeline_of_fresh hfr hk
        simp only [Bool.false_eq_true, if_false]
        refine dk_pre (c' := c) ?_ fun s hs => hs.mono fun b => by omega
        refine dk_bind dk_state fun s => dk_bind (dk_depth _) fun _ => ?_
        refine dk_bind (dk_fold _ (fun out key _ => ?_) _) fun r => dk_bind (dk_depth _) fun _ => dk_bind (c' := c) ?_ fun _ => ?_
        · unfold pipelineStep
          split
          · exact dk_exc _
          · rename_i t ht
            obtain ⟨ot, h1, h2⟩ := hg.pipes a o0 ho0 ins outs pm hk0 key t ht
            refine dk_bind (dk_pre (ih t ⟨ot, h1⟩ c).1 fun s hs => ?_) fun _ => dk_pure _
            refine hs.free (a := t) (fun o' ho' => ?_) fun b hb => by simp [one, hb]
            rw [h1] at ho'; cases ho'; exact h2
        · refine dk_run ha (fun b hb => Nat.le_refl _) fun o1 o01 h3 h4 hst => ⟨trivial, rfl, ?_⟩
          intro as hk1
          rw [ho0] at h3
          cases h3
          exact absurd (isAR_of_fresh h4 ⟨as, hk1⟩) (not_ar_pipeline hk0)
        · split
          · exact dk_pure _
          · exact dk_bind (dk_lift (df_pipelineOutput _ _ _ _)) fun out => dk_emitOp hg ih fuel ha out
    · unfold exec
      refine dk_bind (dk_log _) fun _ => dk_get ha fun o o0 ho0 hfr => ?_
      have hsimple : Dk h0 c c (do
          let out ← localRun a (if true = true then Op.execCtrl else Op.execData)
          emitOp (exec fuel) fuel a out) := by
        simp only [if_true]
        exact dk_bind hC fun out => dk_emitOp hg ih fuel ha out
      cases hk : o.kind <;> (try dsimp only) <;> first | exact hsimple | skip
      · exact absurd (kind_composite_of_fresh hfr hk) (hg.plain a o0 ho0 _ _)
      · simp only [if_true]
        exact dk_pure _

/-! ## Calls of a program -/

theorem dk_feed (hg : Ground h0) (fuel : Nat) {a : Nat} (ha : ∃ o, h0 a = some o) (p : Str) (m : Msg V) (c : Nat → Nat) : Dk h0 c c (feed fuel a p m) :=
  dk_bind (dk_recvData hg fuel c none a m p ha) fun _ => (works_exec hg fuel a ha c).1

theorem dk_feedAll (hg : Ground h0) (fuel : Nat) {a : Nat} (ha : ∃ o, h0 a = some o) (msgs : OpMsg V) (c : Nat → Nat) :
    Dk h0 c c (feedAll fuel a msgs) :=
  dk_fold _ (fun _ _ _ => dk_fold _ (fun _ _ _ => dk_bind (dk_feed hg fuel ha _ _ c) fun _ => dk_pure _) _) _

end Rtbot
