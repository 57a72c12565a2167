import Verif.Lemmas.TimingProc
import Verif.Lemmas.UnitsExec

/-! # `executeData`, `executeControl` and whole programs on corresponding times -/

set_option linter.unusedSectionVars false

namespace Rtbot
namespace Timing
open Spec Mapped
variable {V : Type} [Num V] {R : UInt64 → UInt64 → Prop}

/-- Corresponding steps. -/
abbrev Step (R : UInt64 → UInt64 → Prop) : Res (Op V) (OpMsg V) → Res (Op V) (OpMsg V) → Prop := StepRel (TimedOp R) (TimedOut R)

theorem readyPorts_eq {c c' : Core V} (h : TimedCore R c c') : c.readyPorts = c'.readyPorts := by
  unfold Core.readyPorts
  have h1 : c.isData = c'.isData := by
    funext p
    exact MapRel.has h.data p
  rw [h1, h.toProcess]
  congr 2
  congr 1
  funext p
  have := inps_find h.data p
  cases e1 : c.dataIn.find? p <;> cases e2 : c'.dataIn.find? p <;> rw [e1, e2] at this <;> cases this
  · rename_i hi
    dsimp only
    rw [hi.max, len hi.data]

theorem marked {c c' : Core V} (h : TimedCore R c c') (l : List Str) : TimedCore R { c with toProcess := l } { c' with toProcess := l } :=
  ⟨h.id, h.data, h.ctrl, h.outIds, h.outputs, rfl⟩

theorem withData {c c' : Core V} (h : TimedCore R c c') {d d' : Map (Inp V)} (hd : SameMap (TimedInp R) d d') : TimedCore R { c with dataIn := d } { c' with dataIn := d' } :=
  ⟨h.id, hd, h.ctrl, h.outIds, h.outputs, h.toProcess⟩

theorem withCtrl {c c' : Core V} (h : TimedCore R c c') {d d' : Map (Inp V)} (hd : SameMap (TimedInp R) d d') : TimedCore R { c with ctrlIn := d } { c' with ctrlIn := d' } :=
  ⟨h.id, h.data, hd, h.outIds, h.outputs, h.toProcess⟩

theorem execBase_rel (hR : Relabels R) {o o' : Op V} (h : TimedOp R o o') : Step R o.execBase o'.execBase := by
  unfold Op.execBase
  rw [readyPorts_eq h.core]
  cases o'.core.readyPorts with
  | error e => exact ⟨rfl, h⟩
  | ok ready =>
    dsimp only
    have hm : TimedOp R { o with core := { o.core with toProcess := ready } } { o' with core := { o'.core with toProcess := ready } } := ⟨marked h.core _, h.kind⟩
    split
    · exact ⟨.nil, hm⟩
    · have := process_rel hR hm
      revert this
      generalize Op.process { o with core := { o.core with toProcess := ready } } = x
      generalize Op.process { o' with core := { o'.core with toProcess := ready } } = y
      intro this
      cases x <;> cases y <;> first | exact this.elim | skip
      · exact ⟨this, hm⟩
      · exact ⟨this.1, marked h.core _, this.2⟩

/-! ## Joins -/

theorem joinLatest_rel (hR : Relabels R) {m m' : Map (Inp V)} (h : SameMap (TimedInp R) m m') : ∀ (p : Str) {t t' : UInt64}, R t t' →
    Option.Rel (fun x y : Str × UInt64 => x.1 = y.1 ∧ R x.2 y.2) (joinLatest m (p, t)) (joinLatest m' (p, t')) := by
  induction h with
  | nil => intro p t t' ht; exact .some ⟨rfl, ht⟩
  | @cons e e' m m' h1 _ ih =>
    intro p t t' ht
    obtain ⟨q, ⟨id, mx, s, d⟩⟩ := e
    obtain ⟨q', ⟨id', mx', s', d'⟩⟩ := e'
    obtain ⟨rfl, hi⟩ := h1
    have hd := hi.data
    dsimp only at hd
    cases hd with
    | nil => exact .none
    | @cons a b l l' hab _ =>
      unfold joinLatest
      dsimp only
      by_cases hlt : t < a.time
      · rw [if_pos hlt, if_pos ((hR.lt ht hab).1 hlt)]
        exact ih _ hab
      · rw [if_neg hlt, if_neg fun h => hlt ((hR.lt ht hab).2 h)]
        exact ih _ ht

theorem dropOlder_rel (hR : Relabels R) {i i' : Inp V} (h : TimedInp R i i') {t t' : UInt64} (ht : R t t') : TimedInp R (i.dropOlder t) (i'.dropOlder t') := by
  unfold Inp.dropOlder
  have : ∀ {l l' : List (Msg V)}, List.Forall₂ (TimedMsg R) l l' → ∀ s s' : V, TimedInp R (Inp.dropOlder.go i t l s) (Inp.dropOlder.go i' t' l' s') := by
    intro l l' hl
    induction hl with
    | nil => intro s s'; exact ⟨h.id, h.max, .nil⟩
    | @cons a b l l' h1 h2 ih =>
      intro s s'
      unfold Inp.dropOlder.go
      by_cases hlt : a.time < t
      · rw [if_pos hlt, if_pos ((hR.lt h1 ht).1 hlt)]
        exact ih _ _
      · rw [if_neg hlt, if_neg fun h => hlt ((hR.lt h1 ht).2 h)]
        exact ⟨h.id, h.max, .cons h1 h2⟩
  exact this h.data _ _

theorem joinMessages_rel (cm : Map Str) {m m' : Map (Inp V)} (h : SameMap (TimedInp R) m m') : ∀ {out out' : OpMsg V}, TimedOut R out out' →
    ExRel (TimedOut R) (joinMessages cm m out) (joinMessages cm m' out') := by
  induction h with
  | nil => intro out out' ho; exact ho
  | @cons e e' m m' h1 _ ih =>
    intro out out' ho
    obtain ⟨q, ⟨id, mx, s, d⟩⟩ := e
    obtain ⟨q', ⟨id', mx', s', d'⟩⟩ := e'
    obtain ⟨rfl, hi⟩ := h1
    have hd := hi.data
    dsimp only at hd
    unfold joinMessages
    cases hd with
    | nil => exact rfl
    | cons hab _ =>
      dsimp only
      cases cm.find? q with
      | none => exact rfl
      | some r => exact ih (MapRel.emplace ho r (.cons hab .nil))

theorem answers_some {op : BinOp} (h : Answers op) (a b : V) : ∃ v, op.eval a b = some v := by
  cases op <;> first | exact h.elim | exact ⟨_, rfl⟩

theorem binaryMessages_rel (hR : Relabels R) {op : BinOp} (ho : Answers op) {c c' : Core V} (h : TimedCore R c c') : ExRel (TimedOut R) (binaryMessages op c) (binaryMessages op c') := by
  unfold binaryMessages
  refine bind_rel (dataMsg_rel hR h i2 0) fun a a' ha => bind_rel (dataMsg_rel hR h i1 0) fun b b' hb => ?_
  obtain ⟨v, hv⟩ := answers_some ho b.value a.value
  obtain ⟨v', hv'⟩ := answers_some ho b'.value a'.value
  rw [hv, hv']
  exact single_rel hb v v'

theorem linearLoop_rel {m m' : Map (Inp V)} (h : SameMap (TimedInp R) m m') : ∀ (as : List V) {x x' : Msg V}, TimedMsg R x x' →
    ExRel (TimedMsg R) (linearLoop m as x) (linearLoop m' as x') := by
  induction h with
  | nil => intro as x x' hx; exact hx
  | @cons e e' m m' h1 _ ih =>
    intro as x x' hx
    obtain ⟨q, ⟨id, mx, s, d⟩⟩ := e
    obtain ⟨q', ⟨id', mx', s', d'⟩⟩ := e'
    obtain ⟨rfl, hi⟩ := h1
    have hd := hi.data
    dsimp only at hd
    unfold linearLoop
    cases hd with
    | nil => exact rfl
    | cons hab _ =>
      cases as with
      | nil => exact rfl
      | cons a as => exact ih as hab

theorem joinProcess_rel (hR : Relabels R) {o o' : Op V} (h : TimedOp R o o') : ExRel (TimedOut R) (joinProcess o) (joinProcess o') := by
  obtain ⟨c, k⟩ := o
  obtain ⟨c', k'⟩ := o'
  obtain ⟨hc, hk⟩ := h
  dsimp only at hc hk
  cases hk with
  | input | cumSum | rsi | constRes | hermRes => exact .nil
  | other ho hi =>
    cases k with
    | join cm => exact joinMessages_rel cm hc.data .nil
    | binary op => exact binaryMessages_rel hR ho hc
    | linear as => exact bind_rel (linearLoop_rel hc.data as (zero_rel hR)) fun m m' hm => single_rel' hm
    | _ => exact .nil

theorem popAll_rel {m m' : Map (Inp V)} (h : SameMap (TimedInp R) m m') : ExRel (SameMap (TimedInp R)) (popAll m) (popAll m') := by
  induction h with
  | nil => exact .nil
  | @cons e e' m m' h1 _ ih =>
    obtain ⟨q, i⟩ := e
    obtain ⟨q', i'⟩ := e'
    obtain ⟨rfl, hi⟩ := h1
    unfold popAll
    have := popSum_rel hi
    cases e1 : i.popSum <;> cases e2 : i'.popSum <;> rw [e1, e2] at this <;> cases this
    · exact rfl
    · rename_i hp
      exact bind_rel (A := SameMap (TimedInp R)) ih fun r r' hr => .cons ⟨rfl, hp⟩ hr

open Measures in
theorem dropAll_rel (hR : Relabels R) (ref : Str) {t t' : UInt64} (ht : R t t') {m m' : Map (Inp V)} (h : SameMap (TimedInp R) m m') :
    SameMap (TimedInp R) (dropAll ref t m) (dropAll ref t' m') := by
  unfold dropAll
  induction h with
  | nil => exact .nil
  | @cons e e' m m' h1 _ ih =>
    obtain ⟨q, i⟩ := e
    obtain ⟨q', i'⟩ := e'
    obtain ⟨rfl, hi⟩ := h1
    rw [List.map_cons, List.map_cons]
    refine .cons ⟨rfl, ?_⟩ ih
    dsimp only
    split
    · exact hi
    · exact dropOlder_rel hR hi ht

open Measures in
theorem allReady_eq (hR : Relabels R) {t t' : UInt64} (ht : R t t') {m m' : Map (Inp V)} (h : SameMap (TimedInp R) m m') : allReady t m = allReady t' m' := by
  unfold allReady
  induction h with
  | nil => rfl
  | @cons e e' m m' h1 _ ih =>
    obtain ⟨q, ⟨id, mx, s, d⟩⟩ := e
    obtain ⟨q', ⟨id', mx', s', d'⟩⟩ := e'
    obtain ⟨rfl, hi⟩ := h1
    have hd := hi.data
    dsimp only at hd
    rw [List.all_cons, List.all_cons, ih]
    congr 1
    cases hd with
    | nil => rfl
    | cons hab _ => exact congrArg not (decide_eq_decide.2 (hR.lt ht hab))

open Measures in
theorem joinEnd_rel (hR : Relabels R) {o o' : Op V} (h : TimedOp R o o') {d d' : Map (Inp V)} (hd : SameMap (TimedInp R) d d') {t t' : UInt64} (ht : R t t') :
    Step R (joinEnd o d t) (joinEnd o' d' t') := by
  unfold joinEnd
  rw [allReady_eq hR ht hd]
  dsimp only
  have hn : TimedOp R { o with core := { o.core with dataIn := d } } { o' with core := { o'.core with dataIn := d' } } := ⟨withData h.core hd, h.kind⟩
  split
  · have h1 := joinProcess_rel hR hn
    have h2 := popAll_rel hd
    revert h1 h2
    generalize joinProcess { o with core := { o.core with dataIn := d } } = x
    generalize joinProcess { o' with core := { o'.core with dataIn := d' } } = y
    generalize popAll d = u
    generalize popAll d' = v
    intro h1 h2
    cases x <;> cases y <;> first | exact h1.elim | skip
    · exact ⟨h1, hn⟩
    · cases u <;> cases v <;> first | exact h2.elim | skip
      · exact ⟨h2, hn⟩
      · exact ⟨h1, withData h.core h2, h.kind⟩
  · exact ⟨.nil, hn⟩

theorem execJoin_eq (o : Op V) : o.execJoin = match o.core.dataIn with
    | [] => .err (.exc .outOfRange) o
    | (p0, i0) :: _ =>
      match i0.data with
      | [] => .ok [] o
      | m0 :: _ =>
        match joinLatest o.core.dataIn (p0, m0.time) with
        | none => .ok [] o
        | some (ref, t) => Measures.joinEnd o (Measures.dropAll ref t o.core.dataIn) t := rfl

theorem execJoin_rel (hR : Relabels R) {o o' : Op V} (h : TimedOp R o o') : Step R o.execJoin o'.execJoin := by
  rw [execJoin_eq, execJoin_eq]
  have hd := h.core.data
  cases e1 : o.core.dataIn with
  | nil =>
    rw [e1] at hd
    cases e2 : o'.core.dataIn with
    | nil => exact ⟨rfl, h⟩
    | cons _ _ => rw [e2] at hd; cases hd
  | cons e rest =>
    rw [e1] at hd
    cases e2 : o'.core.dataIn with
    | nil => rw [e2] at hd; cases hd
    | cons e' rest' =>
      rw [e2] at hd
      have hd0 := hd
      cases hd with
      | cons h1 h2 =>
        obtain ⟨q, ⟨id, mx, s, d⟩⟩ := e
        obtain ⟨q', ⟨id', mx', s', d'⟩⟩ := e'
        obtain ⟨rfl, hi⟩ := h1
        have hm := hi.data
        dsimp only at hm ⊢
        cases hm with
        | nil => exact ⟨.nil, h⟩
        | cons hab _ =>
          dsimp only
          have hj := joinLatest_rel hR hd0 q hab
          revert hj
          generalize joinLatest _ _ = x, joinLatest _ _ = y
          intro hj
          cases hj with
          | none => exact ⟨.nil, h⟩
          | @some a b hr =>
            obtain ⟨ref, t⟩ := a
            obtain ⟨ref', t'⟩ := b
            obtain ⟨rfl, ht⟩ := hr
            exact joinEnd_rel hR h (dropAll_rel hR ref ht hd0) ht

/-! ## AutoRegressive and Variable -/

theorem arLoop_rel : ∀ (n : Nat) (acc acc' : V) {l l' : List (Msg V)} (as : List V), List.Forall₂ (TimedMsg R) l l' → ExRel (fun _ _ => True) (arLoop n acc l as) (arLoop n acc' l' as) := by
  intro n
  induction n with
  | zero => intro acc acc' l l' as _; trivial
  | succ n ih =>
    intro acc acc' l l' as h
    cases as with
    | nil => cases h <;> exact rfl
    | cons a as =>
      cases h with
      | nil => exact rfl
      | cons h1 h2 => exact ih _ _ as h2

theorem dropLast_rel {α : Type} {A : α → α → Prop} {l l' : List α} (h : List.Forall₂ A l l') : List.Forall₂ A l.dropLast l'.dropLast := by
  induction h with
  | nil => exact .nil
  | cons h1 h2 ih =>
    cases h2 with
    | nil => exact .nil
    | cons h3 h4 => exact .cons h1 ih

theorem execAR_rel {o o' : Op V} (h : TimedOp R o o') (as : List V) : Step R (o.execAR as) (o'.execAR as) := by
  have h0 := h
  obtain ⟨⟨id, dataIn, ctrlIn, outIds, outputs, toProcess⟩, k⟩ := o
  obtain ⟨⟨id', dataIn', ctrlIn', outIds', outputs', toProcess'⟩, k'⟩ := o'
  obtain ⟨hc, hk⟩ := h
  have hd := hc.data
  dsimp only at hd hk
  unfold Op.execAR
  dsimp only
  cases hd with
  | nil => exact ⟨rfl, h0⟩
  | @cons e e' _ _ h1 h2 =>
    obtain ⟨q, ⟨iid, mx, s, d⟩⟩ := e
    obtain ⟨q', ⟨iid', mx', s', d'⟩⟩ := e'
    obtain ⟨rfl, hi⟩ := h1
    cases h2 with
    | cons _ _ => exact ⟨rfl, h0⟩
    | nil =>
      have hm := hi.data
      have hmx := hi.max
      dsimp only at hm hmx ⊢
      subst hmx
      have hlast := last_rel hm
      cases e1 : d.getLast? <;> cases e2 : d'.getLast? <;> rw [e1, e2] at hlast <;> cases hlast
      · exact ⟨rfl, h0⟩
      · rename_i l l' hll
        dsimp only
        have har := arLoop_rel mx l.value l'.value as hm
        revert har
        generalize arLoop mx l.value d as = x, arLoop mx l'.value d' as = y
        intro har
        cases x <;> cases y <;> first | exact har.elim | skip
        · exact ⟨har, h0⟩
        · rename_i v v'
          dsimp only
          cases hm with
          | nil => cases e1
          | cons _ ht =>
            rw [List.tail_cons, List.tail_cons]
            cases ht with
            | nil => exact ⟨rfl, h0⟩
            | cons h3 h4 =>
              exact ⟨single_rel hll v v', ⟨hc.id, .cons ⟨rfl, hi.id, rfl, List.rel_append (dropLast_rel (.cons h3 h4)) (.cons hll .nil)⟩ .nil, hc.ctrl, hc.outIds, hc.outputs, hc.toProcess⟩, hk⟩

theorem varSearch_rel (hR : Relabels R) {q q' : UInt64} (hq : R q q') {l l' : List (Msg V)} (h : List.Forall₂ (TimedMsg R) l l') :
    List.Forall₂ (TimedMsg R) (varSearch q l).1 (varSearch q' l').1 ∧ (varSearch q l).2.isSome = (varSearch q' l').2.isSome := by
  induction h with
  | nil => exact ⟨.nil, rfl⟩
  | @cons a a' l l' h1 h2 ih =>
    cases h2 with
    | nil => exact ⟨.cons h1 .nil, rfl⟩
    | @cons b b' l l' h3 h4 =>
      rw [varSearch, varSearch]
      rw [show decide (a.time < q) = decide (a'.time < q') from decide_eq_decide.2 (hR.lt h1 hq), show decide (q < b.time) = decide (q' < b'.time) from decide_eq_decide.2 (hR.lt hq h3)]
      split
      · exact ⟨.cons h1 (.cons h3 h4), rfl⟩
      · by_cases he : q = b.time
        · rw [if_pos he, if_pos ((eq_iff hR hq h3).1 he)]
          exact ⟨.cons h3 h4, rfl⟩
        · rw [if_neg he, if_neg fun h => he ((eq_iff hR hq h3).2 h)]
          exact ih

theorem execVariable_rel (hR : Relabels R) {o o' : Op V} (h : TimedOp R o o') (v : V) (ini : Bool) : Step R (o.execVariable v ini) (o'.execVariable v ini) := by
  have h0 := h
  obtain ⟨⟨id, dataIn, ctrlIn, outIds, outputs, toProcess⟩, k⟩ := o
  obtain ⟨⟨id', dataIn', ctrlIn', outIds', outputs', toProcess'⟩, k'⟩ := o'
  obtain ⟨hc, hk⟩ := h
  have hd := hc.data
  have hcc := hc.ctrl
  dsimp only at hd hcc hk
  unfold Op.execVariable
  dsimp only
  cases hd with
  | nil => exact ⟨rfl, h0⟩
  | @cons e e' _ _ h1 h2 =>
    obtain ⟨q, ⟨iid, mx, s, d⟩⟩ := e
    obtain ⟨q', ⟨iid', mx', s', d'⟩⟩ := e'
    obtain ⟨rfl, hi⟩ := h1
    cases h2 with
    | cons _ _ => exact ⟨rfl, h0⟩
    | nil =>
      cases hcc with
      | nil => exact ⟨rfl, h0⟩
      | @cons f f' _ _ h3 h4 =>
        obtain ⟨r, ⟨cid, cmx, cs, cd⟩⟩ := f
        obtain ⟨r', ⟨cid', cmx', cs', cd'⟩⟩ := f'
        obtain ⟨rfl, hci⟩ := h3
        cases h4 with
        | cons _ _ => exact ⟨rfl, h0⟩
        | nil =>
          have hm := hi.data
          have hcm := hci.data
          dsimp only at hm hcm ⊢
          cases hm with
          | nil => exact ⟨.nil, h0⟩
          | @cons a a' l l' ha hl =>
            cases hcm with
            | nil => exact ⟨.nil, h0⟩
            | @cons x x' u u' hx hu =>
              dsimp only
              have done : ∀ {dd dd' : List (Msg V)} (b : Bool) (w w' : V), List.Forall₂ (TimedMsg R) dd dd' →
                  Step R (.ok (single ⟨x.time, w⟩) ⟨⟨id, [(q, ⟨iid, mx, s, dd⟩)], [(r, ⟨cid, cmx, cs, u⟩)], outIds, outputs, toProcess⟩, .variable v b⟩)
                    (.ok (single ⟨x'.time, w'⟩) ⟨⟨id', [(q, ⟨iid', mx', s', dd'⟩)], [(r, ⟨cid', cmx', cs', u'⟩)], outIds', outputs', toProcess'⟩, .variable v b⟩) := by
                intro dd dd' b w w' hdd
                exact ⟨single_rel hx w w', ⟨hc.id, .cons ⟨rfl, hi.id, hi.max, hdd⟩ .nil, .cons ⟨rfl, hci.id, hci.max, hu⟩ .nil, hc.outIds, hc.outputs, hc.toProcess⟩, .other trivial nofun⟩
              by_cases hlt : x.time < a.time
              · rw [if_pos hlt, if_pos ((hR.lt hx ha).1 hlt)]
                cases ini with
                | true => exact ⟨rfl, h0⟩
                | false => exact done _ _ _ (.cons ha hl)
              · rw [if_neg hlt, if_neg fun h => hlt ((hR.lt hx ha).2 h)]
                by_cases he : x.time = a.time
                · rw [if_pos he, if_pos ((eq_iff hR hx ha).1 he)]
                  exact done _ _ _ (.cons ha hl)
                · rw [if_neg he, if_neg fun h => he ((eq_iff hR hx ha).2 h)]
                  obtain ⟨hs1, hs2⟩ := varSearch_rel hR hx (List.Forall₂.cons ha hl)
                  revert hs1 hs2
                  generalize varSearch x.time (a :: l) = z, varSearch x'.time (a' :: l') = z'
                  intro hs1 hs2
                  obtain ⟨z1, z2⟩ := z
                  obtain ⟨z1', z2'⟩ := z'
                  dsimp only at hs1 hs2
                  cases z2 <;> cases z2' <;> first | (cases hs2; done) | skip
                  · exact ⟨.nil, ⟨hc.id, .cons ⟨rfl, hi.id, hi.max, hs1⟩ .nil, hc.ctrl, hc.outIds, hc.outputs, hc.toProcess⟩, .other trivial nofun⟩
                  · exact done _ _ _ hs1

/-! ## The law -/

theorem execData_rel (hR : Relabels R) {o o' : Op V} (h : TimedOp R o o') : Step R o.execData o'.execData := by
  have h0 := h
  obtain ⟨c, k⟩ := o
  obtain ⟨c', k'⟩ := o'
  obtain ⟨hc, hk⟩ := h
  dsimp only at hc hk
  cases hk with
  | input | cumSum | rsi | constRes | hermRes => exact execBase_rel hR h0
  | other ho hi =>
    cases k <;> first
      | exact execBase_rel hR h0
      | exact execJoin_rel hR h0
      | exact ho.elim
      | exact execAR_rel h0 _
      | exact execVariable_rel hR h0 _ _

theorem execCtrl_rel (hR : Relabels R) {o o' : Op V} (h : TimedOp R o o') : Step R o.execCtrl o'.execCtrl := by
  have h0 := h
  obtain ⟨c, k⟩ := o
  obtain ⟨c', k'⟩ := o'
  obtain ⟨hc, hk⟩ := h
  dsimp only at hc hk
  cases hk with
  | input | cumSum | rsi | constRes | hermRes => exact ⟨.nil, h0⟩
  | other ho hi =>
    cases k <;> first
      | exact ho.elim
      | exact execVariable_rel hR h0 _ _
      | exact ⟨.nil, h0⟩

theorem law (hR : Relabels R) : Law (TimedMsg R) (TimedOp (V := V) R) where
  face := fun h => ⟨⟨h.core.id, MapRel.keys h.core.data, MapRel.keys h.core.ctrl, h.core.outIds, h.core.outputs⟩, h.core.toProcess⟩
  kinds := by
    rintro ⟨c, k⟩ ⟨c', k'⟩ ⟨_, hk⟩
    dsimp only at hk
    cases hk with
    | input | cumSum | rsi | constRes | hermRes => exact .inl ⟨trivial, trivial⟩
    | other ho hi => cases k <;> first | exact .inl ⟨trivial, trivial⟩ | exact .inr ⟨fun h => h.elim, rfl⟩
  mark := fun l h => ⟨marked h.core l, h.kind⟩
  data := fun p h _ hm => recvData_rel hR h hm p
  ctrl := fun p h hm => recvCtrl_rel h hm p
  execData := fun h _ => execData_rel hR h
  execCtrl := fun h _ => execCtrl_rel hR h

end Timing
end Rtbot
