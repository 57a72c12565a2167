import Verif.Lemmas.NearbyProc
import Verif.Lemmas.UnitsExec

/-! # `executeData`, `executeControl` and whole programs on corresponding times -/

set_option linter.unusedSectionVars false

namespace Rtbot
namespace Nearby
open Spec Mapped
variable {V : Type} [Num V] [Field V] [LinearOrder V] [Exact V] [IsStrictOrderedRing V] {R : UInt64 → UInt64 → Prop} {W : V → V → Prop}

/-- Corresponding steps. -/
abbrev Step (R : UInt64 → UInt64 → Prop) (W : V → V → Prop) : Res (Op V) (OpMsg V) → Res (Op V) (OpMsg V) → Prop := StepRel (ValOp R W) (ValOut R W)

theorem readyPorts_eq {c c' : Core V} (h : ValCore R W c c') : c.readyPorts = c'.readyPorts := by
  unfold Core.readyPorts
  have h1 : c.isData = c'.isData := by
    funext p
    exact MapRel.has h.data p
  rw [h1, h.toProcess]
  congr 2
  congr 1
  funext p
  have := inps_find h.data p
  cases e1 : c.dataIn.find? p <;> cases e2 : c'.dataIn.find? p <;> rw [e1, e2] at this <;> cases this
  · rename_i hi
    dsimp only
    rw [hi.max, len hi.data]

theorem marked {c c' : Core V} (h : ValCore R W c c') (l : List Str) : ValCore R W { c with toProcess := l } { c' with toProcess := l } :=
  ⟨h.id, h.data, h.ctrl, h.outIds, h.outputs, rfl⟩

theorem withData {c c' : Core V} (h : ValCore R W c c') {d d' : Map (Inp V)} (hd : SameMap (ValInp R W) d d') : ValCore R W { c with dataIn := d } { c' with dataIn := d' } :=
  ⟨h.id, hd, h.ctrl, h.outIds, h.outputs, h.toProcess⟩

theorem withCtrl {c c' : Core V} (h : ValCore R W c c') {d d' : Map (Inp V)} (hd : SameMap (ValInp R W) d d') : ValCore R W { c with ctrlIn := d } { c' with ctrlIn := d' } :=
  ⟨h.id, h.data, hd, h.outIds, h.outputs, h.toProcess⟩

theorem execBase_rel (hR : Laws R W) {o o' : Op V} (h : ValOp R W o o') (ht : o.kind = .movAvg → (∀ e ∈ o.core.dataIn, Tallied e.2) ∧ ∀ e ∈ o'.core.dataIn, Tallied e.2) : Step R W o.execBase o'.execBase := by
  unfold Op.execBase
  rw [readyPorts_eq h.core]
  cases o'.core.readyPorts with
  | error e => exact ⟨rfl, h⟩
  | ok ready =>
    dsimp only
    have hm : ValOp R W { o with core := { o.core with toProcess := ready } } { o' with core := { o'.core with toProcess := ready } } := ⟨marked h.core _, h.kind⟩
    split
    · exact ⟨.nil, hm⟩
    · have := process_rel hR hm ht
      revert this
      generalize Op.process { o with core := { o.core with toProcess := ready } } = x
      generalize Op.process { o' with core := { o'.core with toProcess := ready } } = y
      intro this
      cases x <;> cases y <;> first | exact this.elim | skip
      · exact ⟨this, hm⟩
      · exact ⟨this.1, marked h.core _, this.2⟩

/-! ## Joins -/

theorem joinLatest_rel (hR : Laws R W) {m m' : Map (Inp V)} (h : SameMap (ValInp R W) m m') : ∀ (p : Str) {t t' : UInt64}, R t t' →
    Option.Rel (fun x y : Str × UInt64 => x.1 = y.1 ∧ R x.2 y.2) (joinLatest m (p, t)) (joinLatest m' (p, t')) := by
  induction h with
  | nil => intro p t t' ht; exact .some ⟨rfl, ht⟩
  | @cons e e' m m' h1 _ ih =>
    intro p t t' ht
    obtain ⟨q, ⟨id, mx, s, d⟩⟩ := e
    obtain ⟨q', ⟨id', mx', s', d'⟩⟩ := e'
    obtain ⟨rfl, hi⟩ := h1
    have hd := hi.data
    dsimp only at hd
    cases hd with
    | nil => exact .none
    | @cons a b l l' hab _ =>
      unfold joinLatest
      dsimp only
      by_cases hlt : t < a.time
      · rw [if_pos hlt, if_pos ((hR.lt ht hab.1).1 hlt)]
        exact ih _ hab.1
      · rw [if_neg hlt, if_neg fun h => hlt ((hR.lt ht hab.1).2 h)]
        exact ih _ ht

theorem dropOlder_rel (hR : Laws R W) {i i' : Inp V} (h : ValInp R W i i') {t t' : UInt64} (ht : R t t') : ValInp R W (i.dropOlder t) (i'.dropOlder t') := by
  unfold Inp.dropOlder
  have : ∀ {l l' : List (Msg V)}, List.Forall₂ (ValMsg R W) l l' → ∀ s s' : V, ValInp R W (Inp.dropOlder.go i t l s) (Inp.dropOlder.go i' t' l' s') := by
    intro l l' hl
    induction hl with
    | nil => intro s s'; exact ⟨h.id, h.max, .nil⟩
    | @cons a b l l' h1 h2 ih =>
      intro s s'
      unfold Inp.dropOlder.go
      by_cases hlt : a.time < t
      · rw [if_pos hlt, if_pos ((hR.lt h1.1 ht).1 hlt)]
        exact ih _ _
      · rw [if_neg hlt, if_neg fun h => hlt ((hR.lt h1.1 ht).2 h)]
        exact ⟨h.id, h.max, .cons h1 h2⟩
  exact this h.data _ _

theorem joinMessages_rel (cm : Map Str) {m m' : Map (Inp V)} (h : SameMap (ValInp R W) m m') : ∀ {out out' : OpMsg V}, ValOut R W out out' →
    ExRel (ValOut R W) (joinMessages cm m out) (joinMessages cm m' out') := by
  induction h with
  | nil => intro out out' ho; exact ho
  | @cons e e' m m' h1 _ ih =>
    intro out out' ho
    obtain ⟨q, ⟨id, mx, s, d⟩⟩ := e
    obtain ⟨q', ⟨id', mx', s', d'⟩⟩ := e'
    obtain ⟨rfl, hi⟩ := h1
    have hd := hi.data
    dsimp only at hd
    unfold joinMessages
    cases hd with
    | nil => exact rfl
    | cons hab _ =>
      dsimp only
      cases cm.find? q with
      | none => exact rfl
      | some r => exact ih (MapRel.emplace ho r (.cons hab .nil))

theorem binaryMessages_rel (hR : Laws R W) {op : BinOp} (ho : FineKind R W (.binary op : Kind V)) {c c' : Core V} (h : ValCore R W c c') : ExRel (ValOut R W) (binaryMessages op c) (binaryMessages op c') := by
  unfold binaryMessages
  refine bind_rel (dataMsg_rel hR h i2 0) fun a a' ha => bind_rel (dataMsg_rel hR h i1 0) fun b b' hb => ?_
  obtain ⟨v, v', hv, hv', hw⟩ := ho _ _ _ _ hb.2 ha.2
  rw [hv, hv']
  exact single_rel hb.1 hw

theorem linearLoop_rel {m m' : Map (Inp V)} (h : SameMap (ValInp R W) m m') : ∀ (as : List V) {x x' : Msg V}, R x.time x'.time →
    ExRel (fun y y' : Msg V => R y.time y'.time ∧ ∃ xs xs', List.Forall₂ W xs xs' ∧ y.value = x.value + dot xs as ∧ y'.value = x'.value + dot xs' as) (linearLoop m as x) (linearLoop m' as x') := by
  induction h with
  | nil => intro as x x' hx; exact ⟨hx, [], [], .nil, by simp [dot], by simp [dot]⟩
  | @cons e e' m m' h1 _ ih =>
    intro as x x' hx
    obtain ⟨q, ⟨id, mx, s, d⟩⟩ := e
    obtain ⟨q', ⟨id', mx', s', d'⟩⟩ := e'
    obtain ⟨rfl, hi⟩ := h1
    have hd := hi.data
    dsimp only at hd
    unfold linearLoop
    cases hd with
    | nil => exact rfl
    | @cons a0 a0' _ _ hab _ =>
      cases as with
      | nil => exact rfl
      | cons a as =>
        have := ih as (x := ⟨a0.time, x.value +. a0.value *. a⟩) (x' := ⟨a0'.time, x'.value +. a0'.value *. a⟩) hab.1
        revert this
        dsimp only
        generalize linearLoop m as _ = u, linearLoop m' as _ = v
        intro this
        cases u <;> cases v <;> first | exact this.elim | skip
        · exact this
        · obtain ⟨h1, xs, xs', h2, h3, h4⟩ := this
          refine ⟨h1, a0.value :: xs, a0'.value :: xs', .cons hab.2 h2, ?_, ?_⟩
          · rw [h3, Exact.add_eq, Exact.mul_eq]; simp [dot, add_assoc]
          · rw [h4, Exact.add_eq, Exact.mul_eq]; simp [dot, add_assoc]

theorem joinProcess_rel (hR : Laws R W) {o o' : Op V} (h : ValOp R W o o') : ExRel (ValOut R W) (joinProcess o) (joinProcess o') := by
  obtain ⟨c, k⟩ := o
  obtain ⟨c', k'⟩ := o'
  obtain ⟨hc, hk⟩ := h
  dsimp only at hc hk
  cases hk with
  | input | cumSum | constRes => exact .nil
  | other ho hi =>
    cases k with
    | join cm => exact joinMessages_rel cm hc.data .nil
    | binary op => exact binaryMessages_rel hR ho hc
    | linear as =>
      refine bind_rel (linearLoop_rel hc.data as (zero_rel hR).1) fun m m' hm => single_rel' ⟨hm.1, ?_⟩
      obtain ⟨_, xs, xs', h2, h3, h4⟩ := hm
      rw [h3, h4]
      dsimp only
      rw [Exact.ofNat_eq, Nat.cast_zero, zero_add, zero_add]
      exact ho _ _ h2
    | _ => exact .nil

theorem popAll_rel {m m' : Map (Inp V)} (h : SameMap (ValInp R W) m m') : ExRel (SameMap (ValInp R W)) (popAll m) (popAll m') := by
  induction h with
  | nil => exact .nil
  | @cons e e' m m' h1 _ ih =>
    obtain ⟨q, i⟩ := e
    obtain ⟨q', i'⟩ := e'
    obtain ⟨rfl, hi⟩ := h1
    unfold popAll
    have := popSum_rel hi
    cases e1 : i.popSum <;> cases e2 : i'.popSum <;> rw [e1, e2] at this <;> cases this
    · exact rfl
    · rename_i hp
      exact bind_rel (A := SameMap (ValInp R W)) ih fun r r' hr => .cons ⟨rfl, hp⟩ hr

open Measures in
theorem dropAll_rel (hR : Laws R W) (ref : Str) {t t' : UInt64} (ht : R t t') {m m' : Map (Inp V)} (h : SameMap (ValInp R W) m m') :
    SameMap (ValInp R W) (dropAll ref t m) (dropAll ref t' m') := by
  unfold dropAll
  induction h with
  | nil => exact .nil
  | @cons e e' m m' h1 _ ih =>
    obtain ⟨q, i⟩ := e
    obtain ⟨q', i'⟩ := e'
    obtain ⟨rfl, hi⟩ := h1
    rw [List.map_cons, List.map_cons]
    refine .cons ⟨rfl, ?_⟩ ih
    dsimp only
    split
    · exact hi
    · exact dropOlder_rel hR hi ht

open Measures in
theorem allReady_eq (hR : Laws R W) {t t' : UInt64} (ht : R t t') {m m' : Map (Inp V)} (h : SameMap (ValInp R W) m m') : allReady t m = allReady t' m' := by
  unfold allReady
  induction h with
  | nil => rfl
  | @cons e e' m m' h1 _ ih =>
    obtain ⟨q, ⟨id, mx, s, d⟩⟩ := e
    obtain ⟨q', ⟨id', mx', s', d'⟩⟩ := e'
    obtain ⟨rfl, hi⟩ := h1
    have hd := hi.data
    dsimp only at hd
    rw [List.all_cons, List.all_cons, ih]
    congr 1
    cases hd with
    | nil => rfl
    | cons hab _ => exact congrArg not (decide_eq_decide.2 (hR.lt ht hab.1))

open Measures in
theorem joinEnd_rel (hR : Laws R W) {o o' : Op V} (h : ValOp R W o o') {d d' : Map (Inp V)} (hd : SameMap (ValInp R W) d d') {t t' : UInt64} (ht : R t t') :
    Step R W (joinEnd o d t) (joinEnd o' d' t') := by
  unfold joinEnd
  rw [allReady_eq hR ht hd]
  dsimp only
  have hn : ValOp R W { o with core := { o.core with dataIn := d } } { o' with core := { o'.core with dataIn := d' } } := ⟨withData h.core hd, h.kind⟩
  split
  · have h1 := joinProcess_rel hR hn
    have h2 := popAll_rel hd
    revert h1 h2
    generalize joinProcess { o with core := { o.core with dataIn := d } } = x
    generalize joinProcess { o' with core := { o'.core with dataIn := d' } } = y
    generalize popAll d = u
    generalize popAll d' = v
    intro h1 h2
    cases x <;> cases y <;> first | exact h1.elim | skip
    · exact ⟨h1, hn⟩
    · cases u <;> cases v <;> first | exact h2.elim | skip
      · exact ⟨h2, hn⟩
      · exact ⟨h1, withData h.core h2, h.kind⟩
  · exact ⟨.nil, hn⟩

theorem execJoin_eq (o : Op V) : o.execJoin = match o.core.dataIn with
    | [] => .err (.exc .outOfRange) o
    | (p0, i0) :: _ =>
      match i0.data with
      | [] => .ok [] o
      | m0 :: _ =>
        match joinLatest o.core.dataIn (p0, m0.time) with
        | none => .ok [] o
        | some (ref, t) => Measures.joinEnd o (Measures.dropAll ref t o.core.dataIn) t := rfl

theorem execJoin_rel (hR : Laws R W) {o o' : Op V} (h : ValOp R W o o') : Step R W o.execJoin o'.execJoin := by
  rw [execJoin_eq, execJoin_eq]
  have hd := h.core.data
  cases e1 : o.core.dataIn with
  | nil =>
    rw [e1] at hd
    cases e2 : o'.core.dataIn with
    | nil => exact ⟨rfl, h⟩
    | cons _ _ => rw [e2] at hd; cases hd
  | cons e rest =>
    rw [e1] at hd
    cases e2 : o'.core.dataIn with
    | nil => rw [e2] at hd; cases hd
    | cons e' rest' =>
      rw [e2] at hd
      have hd0 := hd
      cases hd with
      | cons h1 h2 =>
        obtain ⟨q, ⟨id, mx, s, d⟩⟩ := e
        obtain ⟨q', ⟨id', mx', s', d'⟩⟩ := e'
        obtain ⟨rfl, hi⟩ := h1
        have hm := hi.data
        dsimp only at hm ⊢
        cases hm with
        | nil => exact ⟨.nil, h⟩
        | cons hab _ =>
          dsimp only
          have hj := joinLatest_rel hR hd0 q hab.1
          revert hj
          generalize joinLatest _ _ = x, joinLatest _ _ = y
          intro hj
          cases hj with
          | none => exact ⟨.nil, h⟩
          | @some a b hr =>
            obtain ⟨ref, t⟩ := a
            obtain ⟨ref', t'⟩ := b
            obtain ⟨rfl, ht⟩ := hr
            exact joinEnd_rel hR h (dropAll_rel hR ref ht hd0) ht

/-! ## AutoRegressive and Variable -/

theorem arLoop_rel : ∀ (n : Nat) (acc acc' : V) {l l' : List (Msg V)} (as : List V), List.Forall₂ (ValMsg R W) l l' →
    ExRel (fun v v' => ∃ xs xs', List.Forall₂ W xs xs' ∧ v = acc + dot xs as ∧ v' = acc' + dot xs' as) (arLoop n acc l as) (arLoop n acc' l' as) := by
  intro n
  induction n with
  | zero => intro acc acc' l l' as _; exact ⟨[], [], .nil, by simp [dot], by simp [dot]⟩
  | succ n ih =>
    intro acc acc' l l' as h
    cases as with
    | nil => cases h <;> exact rfl
    | cons a as =>
      cases h with
      | nil => exact rfl
      | @cons m m' _ _ h1 h2 =>
        unfold arLoop
        have := ih (acc +. a *. m.value) (acc' +. a *. m'.value) as h2
        revert this
        dsimp only
        generalize arLoop n _ _ as = u, arLoop n _ _ as = v
        intro this
        cases u <;> cases v <;> first | exact this.elim | skip
        · exact this
        · obtain ⟨xs, xs', h3, h4, h5⟩ := this
          refine ⟨m.value :: xs, m'.value :: xs', .cons h1.2 h3, ?_, ?_⟩
          · rw [h4, Exact.add_eq, Exact.mul_eq]; simp [dot, add_assoc, mul_comm]
          · rw [h5, Exact.add_eq, Exact.mul_eq]; simp [dot, add_assoc, mul_comm]

theorem dropLast_rel {α : Type} {A : α → α → Prop} {l l' : List α} (h : List.Forall₂ A l l') : List.Forall₂ A l.dropLast l'.dropLast := by
  induction h with
  | nil => exact .nil
  | cons h1 h2 ih =>
    cases h2 with
    | nil => exact .nil
    | cons h3 h4 => exact .cons h1 ih

theorem execAR_rel {o o' : Op V} (h : ValOp R W o o') {as : List V} (ho : FineKind R W (.autoReg as : Kind V)) : Step R W (o.execAR as) (o'.execAR as) := by
  have h0 := h
  obtain ⟨⟨id, dataIn, ctrlIn, outIds, outputs, toProcess⟩, k⟩ := o
  obtain ⟨⟨id', dataIn', ctrlIn', outIds', outputs', toProcess'⟩, k'⟩ := o'
  obtain ⟨hc, hk⟩ := h
  have hd := hc.data
  dsimp only at hd hk
  unfold Op.execAR
  dsimp only
  cases hd with
  | nil => exact ⟨rfl, h0⟩
  | @cons e e' _ _ h1 h2 =>
    obtain ⟨q, ⟨iid, mx, s, d⟩⟩ := e
    obtain ⟨q', ⟨iid', mx', s', d'⟩⟩ := e'
    obtain ⟨rfl, hi⟩ := h1
    cases h2 with
    | cons _ _ => exact ⟨rfl, h0⟩
    | nil =>
      have hm := hi.data
      have hmx := hi.max
      dsimp only at hm hmx ⊢
      subst hmx
      have hlast := last_rel hm
      cases e1 : d.getLast? <;> cases e2 : d'.getLast? <;> rw [e1, e2] at hlast <;> cases hlast
      · exact ⟨rfl, h0⟩
      · rename_i l l' hll
        dsimp only
        have har := arLoop_rel mx l.value l'.value as hm
        revert har
        generalize arLoop mx l.value d as = x, arLoop mx l'.value d' as = y
        intro har
        cases x <;> cases y <;> first | exact har.elim | skip
        · exact ⟨har, h0⟩
        · rename_i v v'
          have hw : W v v' := by
            obtain ⟨xs, xs', g1, g2, g3⟩ := har
            rw [g2, g3]
            exact ho _ _ _ _ hll.2 g1
          dsimp only
          cases hm with
          | nil => cases e1
          | cons _ ht =>
            rw [List.tail_cons, List.tail_cons]
            cases ht with
            | nil => exact ⟨rfl, h0⟩
            | cons h3 h4 =>
              exact ⟨single_rel hll.1 hw, ⟨hc.id, .cons ⟨rfl, hi.id, rfl, List.rel_append (dropLast_rel (.cons h3 h4)) (.cons ⟨hll.1, hw⟩ .nil)⟩ .nil, hc.ctrl, hc.outIds, hc.outputs, hc.toProcess⟩, hk⟩

theorem varSearch_rel (hR : Laws R W) {q q' : UInt64} (hq : R q q') {l l' : List (Msg V)} (h : List.Forall₂ (ValMsg R W) l l') :
    List.Forall₂ (ValMsg R W) (varSearch q l).1 (varSearch q' l').1 ∧ Option.Rel W (varSearch q l).2 (varSearch q' l').2 := by
  induction h with
  | nil => exact ⟨.nil, .none⟩
  | @cons a a' l l' h1 h2 ih =>
    cases h2 with
    | nil => exact ⟨.cons h1 .nil, .none⟩
    | @cons b b' l l' h3 h4 =>
      rw [varSearch, varSearch]
      rw [show decide (a.time < q) = decide (a'.time < q') from decide_eq_decide.2 (hR.lt h1.1 hq), show decide (q < b.time) = decide (q' < b'.time) from decide_eq_decide.2 (hR.lt hq h3.1)]
      split
      · exact ⟨.cons h1 (.cons h3 h4), .some h1.2⟩
      · by_cases he : q = b.time
        · rw [if_pos he, if_pos ((eq_iff hR.toRelabels hq h3.1).1 he)]
          exact ⟨.cons h3 h4, .some h3.2⟩
        · rw [if_neg he, if_neg fun h => he ((eq_iff hR.toRelabels hq h3.1).2 h)]
          exact ih

theorem execVariable_rel (hR : Laws R W) {o o' : Op V} (h : ValOp R W o o') (v : V) (ini : Bool) : Step R W (o.execVariable v ini) (o'.execVariable v ini) := by
  have h0 := h
  obtain ⟨⟨id, dataIn, ctrlIn, outIds, outputs, toProcess⟩, k⟩ := o
  obtain ⟨⟨id', dataIn', ctrlIn', outIds', outputs', toProcess'⟩, k'⟩ := o'
  obtain ⟨hc, hk⟩ := h
  have hd := hc.data
  have hcc := hc.ctrl
  dsimp only at hd hcc hk
  unfold Op.execVariable
  dsimp only
  cases hd with
  | nil => exact ⟨rfl, h0⟩
  | @cons e e' _ _ h1 h2 =>
    obtain ⟨q, ⟨iid, mx, s, d⟩⟩ := e
    obtain ⟨q', ⟨iid', mx', s', d'⟩⟩ := e'
    obtain ⟨rfl, hi⟩ := h1
    cases h2 with
    | cons _ _ => exact ⟨rfl, h0⟩
    | nil =>
      cases hcc with
      | nil => exact ⟨rfl, h0⟩
      | @cons f f' _ _ h3 h4 =>
        obtain ⟨r, ⟨cid, cmx, cs, cd⟩⟩ := f
        obtain ⟨r', ⟨cid', cmx', cs', cd'⟩⟩ := f'
        obtain ⟨rfl, hci⟩ := h3
        cases h4 with
        | cons _ _ => exact ⟨rfl, h0⟩
        | nil =>
          have hm := hi.data
          have hcm := hci.data
          dsimp only at hm hcm ⊢
          cases hm with
          | nil => exact ⟨.nil, h0⟩
          | @cons a a' l l' ha hl =>
            cases hcm with
            | nil => exact ⟨.nil, h0⟩
            | @cons x x' u u' hx hu =>
              dsimp only
              have done : ∀ {dd dd' : List (Msg V)} (b : Bool) {w w' : V}, W w w' → List.Forall₂ (ValMsg R W) dd dd' →
                  Step R W (.ok (single ⟨x.time, w⟩) ⟨⟨id, [(q, ⟨iid, mx, s, dd⟩)], [(r, ⟨cid, cmx, cs, u⟩)], outIds, outputs, toProcess⟩, .variable v b⟩)
                    (.ok (single ⟨x'.time, w'⟩) ⟨⟨id', [(q, ⟨iid', mx', s', dd'⟩)], [(r, ⟨cid', cmx', cs', u'⟩)], outIds', outputs', toProcess'⟩, .variable v b⟩) := by
                intro dd dd' b w w' hw hdd
                exact ⟨single_rel hx.1 hw, ⟨hc.id, .cons ⟨rfl, hi.id, hi.max, hdd⟩ .nil, .cons ⟨rfl, hci.id, hci.max, hu⟩ .nil, hc.outIds, hc.outputs, hc.toProcess⟩, .other trivial nofun⟩
              by_cases hlt : x.time < a.time
              · rw [if_pos hlt, if_pos ((hR.lt hx.1 ha.1).1 hlt)]
                cases ini with
                | true => exact ⟨rfl, h0⟩
                | false => exact done _ (hR.refl _) (.cons ha hl)
              · rw [if_neg hlt, if_neg fun h => hlt ((hR.lt hx.1 ha.1).2 h)]
                by_cases he : x.time = a.time
                · rw [if_pos he, if_pos ((eq_iff hR.toRelabels hx.1 ha.1).1 he)]
                  exact done _ ha.2 (.cons ha hl)
                · rw [if_neg he, if_neg fun h => he ((eq_iff hR.toRelabels hx.1 ha.1).2 h)]
                  obtain ⟨hs1, hs2⟩ := varSearch_rel hR hx.1 (List.Forall₂.cons ha hl)
                  revert hs1 hs2
                  generalize varSearch x.time (a :: l) = z, varSearch x'.time (a' :: l') = z'
                  intro hs1 hs2
                  obtain ⟨z1, z2⟩ := z
                  obtain ⟨z1', z2'⟩ := z'
                  dsimp only at hs1 hs2
                  cases hs2 with
                  | none => exact ⟨.nil, ⟨hc.id, .cons ⟨rfl, hi.id, hi.max, hs1⟩ .nil, hc.ctrl, hc.outIds, hc.outputs, hc.toProcess⟩, .other trivial nofun⟩
                  | some hw => exact done _ hw hs1

/-! ## The law -/

theorem execData_rel (hR : Laws R W) {o o' : Op V} (h : ValOp R W o o') (ht : o.kind = .movAvg → (∀ e ∈ o.core.dataIn, Tallied e.2) ∧ ∀ e ∈ o'.core.dataIn, Tallied e.2) : Step R W o.execData o'.execData := by
  have h0 := h
  obtain ⟨c, k⟩ := o
  obtain ⟨c', k'⟩ := o'
  obtain ⟨hc, hk⟩ := h
  dsimp only at hc hk
  cases hk with
  | input | cumSum | constRes => exact execBase_rel hR h0 ht
  | other ho hi =>
    cases k <;> first
      | exact execBase_rel hR h0 ht
      | exact execJoin_rel hR h0
      | exact ho.elim
      | exact execAR_rel h0 ho
      | exact execVariable_rel hR h0 _ _

theorem execCtrl_rel (hR : Laws R W) {o o' : Op V} (h : ValOp R W o o') : Step R W o.execCtrl o'.execCtrl := by
  have h0 := h
  obtain ⟨c, k⟩ := o
  obtain ⟨c', k'⟩ := o'
  obtain ⟨hc, hk⟩ := h
  dsimp only at hc hk
  cases hk with
  | input | cumSum | constRes => exact ⟨.nil, h0⟩
  | other ho hi =>
    cases k <;> first
      | exact ho.elim
      | exact execVariable_rel hR h0 _ _
      | exact ⟨.nil, h0⟩

/-- The sums of the buffers of a `MovingAverage` are right. -/
def Tall (o : Op V) : Prop := o.kind = .movAvg → ∀ e ∈ o.core.dataIn, Tallied e.2

theorem tall_push {i : Inp V} (h : Tallied i) (m : Msg V) : Tallied (i.push m) := by
  show i.sum +. m.value = ((i.data ++ [m]).map Msg.value).sum
  rw [Exact.add_eq, show i.sum = _ from h]
  simp

theorem tall_receive {i j : Inp V} (h : Tallied i) {m : Msg V} (hj : i.receive m = .ok j) : Tallied j := by
  unfold Inp.receive at hj
  split at hj
  · unfold Inp.popSum at hj
    cases hd : i.data with
    | nil => rw [hd] at hj; cases hj
    | cons a l =>
      rw [hd] at hj
      cases hj
      refine tall_push (i := { i with data := l, sum := i.sum -. a.value }) ?_ m
      show i.sum -. a.value = (l.map Msg.value).sum
      rw [Exact.sub_eq, show i.sum = _ from h, hd]
      simp
  · split at hj
    · cases hj
    · cases hj
      exact tall_push h m

theorem mem_put {α : Type} {m : Map α} {k : Str} {x : α} {e : Str × α} (h : e ∈ m.put k x) : e.2 = x ∨ e ∈ m := by
  induction m with
  | nil => rw [show Map.put [] k x = [(k, x)] from rfl, List.mem_singleton] at h; rw [h]; exact .inl rfl
  | cons f m ih =>
    obtain ⟨k1, v1⟩ := f
    unfold Map.put at h
    split at h
    · rcases List.mem_cons.1 h with rfl | h
      · exact .inl rfl
      · exact .inr (List.mem_cons_of_mem _ h)
    · split at h
      · rcases List.mem_cons.1 h with rfl | h
        · exact .inl rfl
        · exact .inr h
      · rcases List.mem_cons.1 h with rfl | h
        · exact .inr List.mem_cons_self
        · rcases ih h with h | h
          · exact .inl h
          · exact .inr (List.mem_cons_of_mem _ h)

theorem tall_recvData {o n : Op V} (h : Tall o) {m : Msg V} {p : Str} (hn : o.recvData m p = .ok n) : Tall n := by
  obtain ⟨c, k⟩ := o
  by_cases hk : k = .movAvg
  · subst hk
    obtain ⟨c', h1, h2⟩ := bind_eq_ok.1 (show (c.receiveDataBase m p >>= fun c => Except.ok (⟨c, Kind.movAvg⟩ : Op V)) = .ok n from hn)
    cases h2
    intro _ e he
    unfold Core.receiveDataBase at h1
    dsimp only at h1 he
    cases hf : c.dataIn.find? (c.resolveData p) with
    | none => rw [hf] at h1; cases h1
    | some i =>
      rw [hf] at h1
      obtain ⟨j, h3, h4⟩ := bind_eq_ok.1 h1
      cases h4
      rcases mem_put he with hx | hx
      · obtain ⟨e', he', h5⟩ := find_mem hf
        rw [hx]
        exact tall_receive (by rw [← h5]; exact h rfl e' he') h3
      · exact h rfl e hx
  · intro hk'
    have : n.kind = k := by
      unfold Op.recvData at hn
      cases k <;> (obtain ⟨c', _, h2⟩ := bind_eq_ok.1 hn; cases h2; rfl)
    exact absurd (this ▸ hk') hk

theorem tall_recvCtrl {o n : Op V} (h : Tall o) {m : Msg V} {p : Str} (hn : o.recvCtrl m p = .ok n) : Tall n := by
  obtain ⟨c, k⟩ := o
  by_cases hk : k = .movAvg
  · subst hk
    obtain ⟨c', h1, h2⟩ := bind_eq_ok.1 (show (c.receiveCtrlBase m p >>= fun c => Except.ok (⟨c, Kind.movAvg⟩ : Op V)) = .ok n from hn)
    cases h2
    intro _ e he
    unfold Core.receiveCtrlBase at h1
    dsimp only at h1 he
    cases hf : c.ctrlIn.find? (c.resolveCtrl p) with
    | none => rw [hf] at h1; cases h1
    | some i =>
      rw [hf] at h1
      obtain ⟨j, h3, h4⟩ := bind_eq_ok.1 h1
      cases h4
      exact h rfl e he
  · intro hk'
    have : n.kind = k := by
      unfold Op.recvCtrl at hn
      cases k <;> (obtain ⟨c', _, h2⟩ := bind_eq_ok.1 hn; cases h2; rfl)
    exact absurd (this ▸ hk') hk

theorem fresh_movAvg {k k' : Kind V} (h : k.fresh = k'.fresh) (hk : k = .movAvg) : k' = .movAvg := by
  subst hk
  cases k' <;> first | rfl | cases h

theorem tall_execData {o : Op V} (h : Tall o) : Tall o.execData.state := by
  intro hk
  have hf := congrArg Op.kind (execData_fresh o)
  have hk' := fresh_movAvg hf hk
  obtain ⟨c, k⟩ := o
  dsimp only at hk'
  subst hk'
  have hd : (Op.execBase ⟨c, .movAvg⟩ : Res (Op V) (OpMsg V)).state.core.dataIn = c.dataIn := by
    unfold Op.execBase
    split
    · rfl
    · dsimp only
      split
      · rfl
      · split <;> rfl
  intro e he
  exact h rfl e (by rw [← hd]; exact he)

theorem tall_execCtrl {o : Op V} (h : Tall o) : Tall o.execCtrl.state := by
  intro hk
  have hf := congrArg Op.kind (execCtrl_fresh o)
  have hk' := fresh_movAvg hf hk
  obtain ⟨c, k⟩ := o
  dsimp only at hk'
  subst hk'
  exact h rfl

/-- Related operators whose sums are right. -/
structure NearOp (R : UInt64 → UInt64 → Prop) (W : V → V → Prop) (o o' : Op V) : Prop where
  op : ValOp R W o o'
  tall : Tall o
  tall' : Tall o'

theorem NearOp.both {o o' : Op V} (h : NearOp R W o o') : o.kind = .movAvg → (∀ e ∈ o.core.dataIn, Tallied e.2) ∧ ∀ e ∈ o'.core.dataIn, Tallied e.2 := by
  intro hk
  refine ⟨h.tall hk, h.tall' ?_⟩
  have := h.op.kind
  rw [hk] at this
  generalize o'.kind = k' at this
  cases this with
  | other => rfl

theorem near_ex {x y : Except Err (Op V)} (h : ExRel (ValOp R W) x y) (hx : ∀ n, x = .ok n → Tall n) (hy : ∀ n, y = .ok n → Tall n) : ExRel (NearOp R W) x y := by
  cases x <;> cases y <;> first | exact h.elim | skip
  · exact h
  · exact ⟨h, hx _ rfl, hy _ rfl⟩

theorem near_step {x y : Res (Op V) (OpMsg V)} (h : Step R W x y) (hx : Tall x.state) (hy : Tall y.state) : StepRel (NearOp R W) (ValOut R W) x y := by
  cases x <;> cases y <;> first | exact h.elim | skip
  · exact ⟨h.1, h.2, hx, hy⟩
  · exact ⟨h.1, h.2, hx, hy⟩

theorem law (hR : Laws R W) : Law (ValMsg R W) (NearOp (V := V) R W) where
  face := fun h => ⟨⟨h.op.core.id, MapRel.keys h.op.core.data, MapRel.keys h.op.core.ctrl, h.op.core.outIds, h.op.core.outputs⟩, h.op.core.toProcess⟩
  kinds := by
    rintro ⟨c, k⟩ ⟨c', k'⟩ ⟨⟨_, hk⟩, _, _⟩
    dsimp only at hk
    cases hk with
    | input | cumSum | constRes => exact .inl ⟨trivial, trivial⟩
    | other ho hi => cases k <;> first | exact .inl ⟨trivial, trivial⟩ | exact .inr ⟨fun h => h.elim, rfl⟩
  mark := fun l h => ⟨⟨marked h.op.core l, h.op.kind⟩, h.tall, h.tall'⟩
  data := fun p h _ hm => near_ex (recvData_rel hR h.op hm p) (fun _ hn => tall_recvData h.tall hn) fun _ hn => tall_recvData h.tall' hn
  ctrl := fun p h hm => near_ex (recvCtrl_rel h.op hm p) (fun _ hn => tall_recvCtrl h.tall hn) fun _ hn => tall_recvCtrl h.tall' hn
  execData := fun h _ => near_step (execData_rel hR h.op h.both) (tall_execData h.tall) (tall_execData h.tall')
  execCtrl := fun h _ => near_step (execCtrl_rel hR h.op) (tall_execCtrl h.tall) (tall_execCtrl h.tall')

end Nearby
end Rtbot
