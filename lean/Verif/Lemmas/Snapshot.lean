import Verif.Lemmas.Bisim
import Verif.Lemmas.Codec
import Verif.Lemmas.Program
import Verif.Spec.Snapshot

set_option linter.unusedSectionVars false

/-! # Restoring a program from a snapshot -/

namespace Rtbot
variable {V : Type} [Num V]
open Spec

/-! ## CumulativeSum -/

/-- A CumulativeSum in any state. -/
def csOp (id : Str) (outs : Map (List Conn)) (acc sum : V) (data : List (Msg V)) (tp : List Str) : Op V :=
  ⟨{ id := id, dataIn := [(i1, { id := i1, max := 1, sum := sum, data := data })], ctrlIn := [], outIds := [o1], outputs := outs, toProcess := tp },
    .cumSum acc⟩

/-- Equal operators, or CumulativeSums that agree in what the snapshot contains, and when ready also in the last message. -/
inductive Revived (ready : Prop) : Op V → Op V → Prop
  | same (o : Op V) : Revived ready o o
  | cumSum (id : Str) (outs : Map (List Conn)) (acc sum sum' : V) (data data' : List (Msg V)) (tp tp' : List Str) (hd : data.length ≤ 1)
      (hd' : data'.length ≤ 1) (ht : tp = [] ∨ tp = [i1]) (ht' : tp' = [] ∨ tp' = [i1]) (hr : ready → data = data' ∧ tp = tp') :
      Revived ready (csOp id outs acc sum data tp) (csOp id outs acc sum' data' tp')

theorem csOp_recv (id : Str) (outs : Map (List Conn)) (acc sum : V) (data : List (Msg V)) (tp : List Str) (hd : data.length ≤ 1)
    (ht : tp = [] ∨ tp = [i1]) (m : Msg V) (p : Str) :
    (p = [] ∨ p = i1) ∧ (∃ sum', (csOp id outs acc sum data tp).recvData m p = .ok (csOp id outs acc sum' [m] [i1])) ∨
    ¬ (p = [] ∨ p = i1) ∧ (csOp id outs acc sum data tp).recvData m p = .error (.exc .badPort) := by
  have htp : setInsert tp i1 = [i1] := by
    rcases ht with rfl | rfl <;> decide
  have hrec : ∃ sum', (({ id := i1, max := 1, sum := sum, data := data } : Inp V).receive m) = .ok { id := i1, max := 1, sum := sum', data := [m] } := by
    match data, hd with
    | [], _ => exact ⟨_, rfl⟩
    | [x], _ => exact ⟨_, rfl⟩
  obtain ⟨sum', hrec⟩ := hrec
  by_cases hp : p = [] ∨ p = i1
  · refine Or.inl ⟨hp, sum', ?_⟩
    have hres : (csOp id outs acc sum data tp).core.resolveData p = i1 := by
      rcases hp with rfl | rfl <;> rfl
    change ((csOp id outs acc sum data tp).core.receiveDataBase m p >>= fun c => Except.ok ({ core := c, kind := .cumSum acc } : Op V)) = _
    unfold Core.receiveDataBase
    rw [hres]
    change ((({ id := i1, max := 1, sum := sum, data := data } : Inp V).receive m >>= fun i' => Except.ok
      ({ (csOp id outs acc sum data tp).core with dataIn := (csOp id outs acc sum data tp).core.dataIn.put i1 i', toProcess := setInsert tp i1 } : Core V)) >>= fun c =>
        Except.ok ({ core := c, kind := .cumSum acc } : Op V)) = _
    rw [hrec, htp]
    rfl
  · refine Or.inr ⟨hp, ?_⟩
    have h1 : p ≠ [] := fun h => hp (Or.inl h)
    have h2 : p ≠ i1 := fun h => hp (Or.inr h)
    have hres : (csOp id outs acc sum data tp).core.resolveData p = p := by
      unfold Core.resolveData
      rw [if_neg h1]
    change ((csOp id outs acc sum data tp).core.receiveDataBase m p >>= fun c => Except.ok ({ core := c, kind := .cumSum acc } : Op V)) = _
    unfold Core.receiveDataBase
    rw [hres]
    have hf : (csOp id outs acc sum data tp).core.dataIn.find? p = none := by
      unfold csOp
      simp [Map.find?]
      exact fun h => h2 h.symm
    simp only [hf]
    rfl

theorem csOp_ctrl (id : Str) (outs : Map (List Conn)) (acc sum : V) (data : List (Msg V)) (tp : List Str) (m : Msg V) (p : Str) :
    (csOp id outs acc sum data tp).recvCtrl m p = .error (.exc .badPort) := rfl

theorem csOp_exec (id : Str) (outs : Map (List Conn)) (acc : V) (data : List (Msg V)) (tp : List Str) (ht : tp = [] ∨ tp = [i1]) :
    ∃ out acc', ∀ sum, (csOp id outs acc sum data tp).execData = .ok out (csOp id outs acc' sum data []) := by
  rcases ht with rfl | rfl
  · exact ⟨[], acc, fun sum => rfl⟩
  · cases data with
    | nil => exact ⟨[], acc, fun sum => rfl⟩
    | cons m ms =>
      refine ⟨single ⟨((m :: ms).getLast (by simp)).time, acc +. ((m :: ms).getLast (by simp)).value⟩, acc +. ((m :: ms).getLast (by simp)).value, fun sum => ?_⟩
      have hready : (csOp id outs acc sum (m :: ms) [i1]).core.readyPorts = .ok [i1] := by
        unfold Core.readyPorts csOp
        simp [Core.isData, Map.has, Map.find?]
      change (csOp id outs acc sum (m :: ms) [i1]).execBase = _
      unfold Op.execBase
      rw [hready]
      dsimp only
      rw [if_neg (by simp)]
      have : (csOp id outs acc sum (m :: ms) [i1]).process = .ok (single ⟨((m :: ms).getLast (by simp)).time,
          acc +. ((m :: ms).getLast (by simp)).value⟩, .cumSum (acc +. ((m :: ms).getLast (by simp)).value)) := by
        have hl : (csOp id outs acc sum (m :: ms) [i1]).core.dataLast i1 = .ok ((m :: ms).getLast (by simp)) := by
          unfold Core.dataLast csOp
          simp [Map.find?, List.getLast?_eq_some_getLast]
        change (procLast (csOp id outs acc sum (m :: ms) [i1]).core _) = _
        unfold procLast
        rw [show (csOp id outs acc sum (m :: ms) [i1]).core.solePort = .ok i1 from rfl]
        dsimp only [bind, Except.bind]
        rw [hl]
      have e : ({ core := { (csOp id outs acc sum (m :: ms) [i1]).core with toProcess := [i1] }, kind := (csOp id outs acc sum (m :: ms) [i1]).kind } : Op V) =
        csOp id outs acc sum (m :: ms) [i1] := rfl
      rw [e, this]
      rfl

theorem revived_twins : Twins (Revived : Prop → Op V → Op V → Prop) where
  weaken := by
    intro p q o o' hpq h
    cases h with
    | same => exact .same _
    | cumSum id outs acc sum sum' data data' tp tp' hd hd' ht ht' hr => exact .cumSum id outs acc sum sum' data data' tp tp' hd hd' ht ht' fun h => hr (hpq h)
  fresh := by
    intro p o o' h
    cases h with
    | same => rfl
    | cumSum => rfl
  recvData := by
    intro p o o' h m q
    cases h with
    | same =>
      cases h : o.recvData m q with
      | ok n => exact Revived.same n
      | error e => exact (rfl : e = e)
    | cumSum id outs acc sum sum' data data' tp tp' hd hd' ht ht' hr =>
      rcases csOp_recv id outs acc sum data tp hd ht m q with ⟨hq, s1, h1⟩ | ⟨hq, h1⟩ <;>
        rcases csOp_recv id outs acc sum' data' tp' hd' ht' m q with ⟨hq', s2, h2⟩ | ⟨hq', h2⟩
      · rw [h1, h2]
        exact Revived.cumSum id outs acc s1 s2 [m] [m] [i1] [i1] (by simp) (by simp) (Or.inr rfl) (Or.inr rfl) fun _ => ⟨rfl, rfl⟩
      · exact absurd hq hq'
      · exact absurd hq' hq
      · rw [h1, h2]
        exact (rfl : Err.exc .badPort = _)
  recvCtrl := by
    intro p o o' h m q
    cases h with
    | same =>
      cases h : o.recvCtrl m q with
      | ok n => exact Revived.same n
      | error e => exact (rfl : e = e)
    | cumSum id outs acc sum sum' data data' tp tp' hd hd' ht ht' hr => exact (rfl : Err.exc .badPort = _)
  execData := by
    intro o o' h
    cases h with
    | same =>
      cases h : o.execData with
      | ok x n => exact ⟨rfl, Revived.same n⟩
      | err e n => exact ⟨rfl, Revived.same n⟩
    | cumSum id outs acc sum sum' data data' tp tp' hd hd' ht ht' hr =>
      obtain ⟨rfl, rfl⟩ := hr trivial
      obtain ⟨out, acc', h⟩ := csOp_exec id outs acc data tp ht
      rw [h, h]
      exact ⟨rfl, .cumSum id outs acc' sum sum' data data [] [] hd hd (Or.inl rfl) (Or.inl rfl) fun _ => ⟨rfl, rfl⟩⟩
  execCtrl := by
    intro o o' h
    cases h with
    | same =>
      cases h : o.execCtrl with
      | ok x n => exact ⟨rfl, Revived.same n⟩
      | err e n => exact ⟨rfl, Revived.same n⟩
    | cumSum id outs acc sum sum' data data' tp tp' hd hd' ht ht' hr =>
      exact ⟨rfl, .cumSum id outs acc sum sum' data data' tp tp' hd hd' ht ht' hr⟩

/-- The states of a CumulativeSum. -/
def IsCs (o : Op V) : Prop := ∃ id outs acc sum data tp, o = csOp id outs acc sum data tp ∧ data.length ≤ 1 ∧ (tp = [] ∨ tp = [i1])

theorem IsCs.act {o : Op V} (h : IsCs o) (a : Act V) : IsCs (act o a).1 := by
  obtain ⟨id, outs, acc, sum, data, tp, rfl, hd, ht⟩ := h
  cases a with
  | recvData p m =>
    unfold Spec.act
    rcases csOp_recv id outs acc sum data tp hd ht m p with ⟨_, s1, h1⟩ | ⟨_, h1⟩
    · dsimp only
      rw [h1]
      exact ⟨_, _, _, _, _, _, rfl, by simp, Or.inr rfl⟩
    · dsimp only
      rw [h1]
      exact ⟨_, _, _, _, _, _, rfl, hd, ht⟩
  | recvCtrl p m => exact ⟨_, _, _, _, _, _, rfl, hd, ht⟩
  | execData =>
    unfold Spec.act
    obtain ⟨out, acc', h⟩ := csOp_exec id outs acc data tp ht
    dsimp only
    rw [h]
    exact ⟨_, _, _, _, _, _, rfl, hd, Or.inl rfl⟩
  | execCtrl => exact ⟨_, _, _, _, _, _, rfl, hd, ht⟩

theorem IsCs.after {o : Op V} (h : IsCs o) (as : List (Act V)) : IsCs (after o as) := by
  induction as generalizing o with
  | nil => exact h
  | cons a as ih => exact ih (h.act a)

/-- Only one constructor gives a CumulativeSum. -/
theorem Spec.Built.cumSum_form {o : Op V} (h : Built o) {acc : V} (hk : o.kind = .cumSum acc) : ∃ id, o = Op.newCumSum id := by
  cases h with
  | input h =>
    obtain ⟨⟨c, pm⟩, h1, h2⟩ := bind_eq_ok.1 h
    cases h2
    cases hk
  | output h =>
    obtain ⟨⟨c, pm⟩, h1, h2⟩ := bind_eq_ok.1 h
    cases h2
    cases hk
  | join h =>
    unfold Op.newJoin at h
    split at h
    · cases h
    · obtain ⟨⟨c, pm⟩, h1, h2⟩ := bind_eq_ok.1 h
      cases h2
      cases hk
  | linear h =>
    unfold Op.newLinear at h
    split at h
    · cases h
    · obtain ⟨c, h1, h2⟩ := bind_eq_ok.1 h
      cases h2
      cases hk
  | demux h =>
    unfold Op.newDemux at h
    split at h
    · cases h
    · obtain ⟨⟨c, pm⟩, h1, h2⟩ := bind_eq_ok.1 h
      obtain ⟨c2, h3, h4⟩ := bind_eq_ok.1 h2
      cases h4
      cases hk
  | constRes h =>
    unfold Op.newConstRes at h
    split at h
    · cases h
    · cases h; cases hk
  | function h =>
    unfold Op.newFunction at h
    split at h
    · cases h
    · split at h
      · cases h
      · cases h; cases hk
  | cumSum id => exact ⟨id, rfl⟩
  | _ => cases hk

theorem Spec.Connected.isCs {o : Op V} (h : Connected o) {acc : V} (hk : o.kind = .cumSum acc) : IsCs o := by
  obtain ⟨o0, outs, hb, rfl⟩ := h
  obtain ⟨id, rfl⟩ := hb.cumSum_form hk
  exact ⟨id, outs, Num.ofNat 0, Num.ofNat 0, [], [], rfl, by simp, Or.inl rfl⟩

/-! ## Creating the program again -/

theorem newConstRes_same {id : Str} {dt t t' : UInt64} {v v' : V} {o : Op V} (h : Op.newConstRes id dt t v = .ok o) :
    ∃ o', Op.newConstRes id dt t' v' = .ok o' ∧ SameParams o o' := by
  unfold Op.newConstRes at h ⊢
  split at h
  · cases h
  · rename_i hd
    cases h
    rw [if_neg hd]
    exact ⟨_, rfl, rfl, Or.inr ⟨_, _, _, _, _, rfl, rfl⟩⟩

theorem otherOpOf_const (j : Json V) (x : UInt64 × V) : otherOpOf b!"ConstantResampler" j x = some (do
    let id ← (← j.sub b!"id").getStr
    let dt ← (← j.sub b!"interval").getU64
    Op.newConstRes id dt x.1 x.2) := rfl

theorem otherOpOf_junk {t : Str} {j : Json V} {x x' : UInt64 × V} {o : Op V} (h : otherOpOf t j x = some (.ok o)) :
    ∃ o', otherOpOf t j x' = some (.ok o') ∧ SameParams o o' := by
  by_cases ht : t = b!"ConstantResampler"
  · subst ht
    rw [otherOpOf_const] at h ⊢
    obtain ⟨id, _, h'⟩ := bind_eq_ok.1 (Option.some.inj h)
    have hb := Option.some.inj h
    obtain ⟨x1, h1, hb⟩ := bind_eq_ok.1 hb
    obtain ⟨id, h2, hb⟩ := bind_eq_ok.1 hb
    obtain ⟨x2, h3, hb⟩ := bind_eq_ok.1 hb
    obtain ⟨dt, h4, hb⟩ := bind_eq_ok.1 hb
    obtain ⟨o', h5, h6⟩ := newConstRes_same (t' := x'.1) (v' := x'.2) hb
    refine ⟨o', ?_, h6⟩
    rw [h1]
    dsimp only [bind, Except.bind]
    rw [h2]
    dsimp only
    rw [h3]
    dsimp only
    rw [h4]
    dsimp only
    rw [h5]
  · have : otherOpOf t j x' = otherOpOf t j x := by
      unfold otherOpOf
      simp only [if_neg ht]
    rw [this]
    exact ⟨o, h, rfl, Or.inl rfl⟩

theorem simpleOpOf_junk {t : Str} {j : Json V} {x x' : UInt64 × V} {o : Op V} (h : simpleOpOf t j x = some (.ok o)) :
    ∃ o', simpleOpOf t j x' = some (.ok o') ∧ SameParams o o' := by
  unfold simpleOpOf at h ⊢
  split at h
  · exact ⟨o, h, rfl, Or.inl rfl⟩
  split at h
  · exact ⟨o, h, rfl, Or.inl rfl⟩
  split at h
  · exact ⟨o, h, rfl, Or.inl rfl⟩
  split at h
  · exact ⟨o, h, rfl, Or.inl rfl⟩
  · exact otherOpOf_junk h

/-- Pairs of memories that differ in uninitialised members only. -/
structure MemLike (m m' : Mem V) : Prop where
  next : m'.next = m.next
  cells : ∀ a, Both SameParams (m.heap a) (m'.heap a)

theorem readOp_junk {junk junk' : Junk V} {fuel : Nat} {j : Json V} {m n m1 : Mem V} {o : Op V} (h : readOp junk fuel j m = .ok (o, m1))
    (hp : ¬ HasType j b!"Pipeline") : m1 = m ∧ ∃ o', readOp junk' fuel j n = .ok (o', n) ∧ SameParams o o' := by
  obtain ⟨t, ht, h1, h2⟩ := readOp_simple h hp
  refine ⟨h2, ?_⟩
  obtain ⟨o', h3, h4⟩ := simpleOpOf_junk (x' := junk' n.next) h1
  refine ⟨o', ?_, h4⟩
  cases fuel with
  | zero => cases h
  | succ fuel =>
    unfold readOp
    have e1 : j.at' b!"type" = .ok (.str t) := Spec.Member.at ht
    rw [e1]
    change (if t = b!"Pipeline" then _ else _) = _
    rw [if_neg (fun he => hp (by rw [he] at ht; exact ht)), h3]
    rfl

theorem SameParams.id {o o' : Op V} (h : SameParams o o') : o'.core.id = o.core.id := by rw [h.1]

theorem buildOps_junk {junk junk' : Junk V} {fuel : Nat} (xs : List (Json V)) (hp : ∀ x ∈ xs, ¬ HasType x b!"Pipeline") :
    ∀ {ops ops' : Map Nat} {m m' n : Mem V}, MemLike m n → buildOps (readOp junk fuel) xs ops m = .ok (ops', m') →
      ∃ n', buildOps (readOp junk' fuel) xs ops n = .ok (ops', n') ∧ MemLike m' n' := by
  induction xs with
  | nil => intro ops ops' m m' n hl hb; cases hb; exact ⟨n, rfl, hl⟩
  | cons x xs ih =>
    intro ops ops' m m' n hl hb
    unfold buildOps at hb
    obtain ⟨idj, h1, hb⟩ := bind_eq_ok.1 hb
    obtain ⟨⟨o, m1⟩, h2, hb⟩ := bind_eq_ok.1 hb
    obtain ⟨id, h3, hb3⟩ := bind_eq_ok.1 hb
    clear hb
    obtain ⟨hm1, o', h4, h5⟩ := readOp_junk (junk' := junk') (n := n) h2 (hp x (by simp))
    rw [hm1] at hb3
    have e : ∀ ops, buildOps (readOp junk' fuel) (x :: xs) ops n = if ops.has id then buildOps (readOp junk' fuel) xs ops n
        else buildOps (readOp junk' fuel) xs (ops.put id n.next) (n.alloc o') := by
      intro ops
      rw [buildOps, h1]
      dsimp only [bind, Except.bind]
      rw [h4]
      dsimp only
      rw [h3]
    have ih' := fun {ops ops' m m' n} => @ih (fun y hy => hp y (List.mem_cons_of_mem _ hy)) ops ops' m m' n
    rw [e]
    split at hb3
    · rename_i hh
      rw [if_pos hh]
      exact ih' hl hb3
    · rename_i hh
      rw [if_neg hh, hl.next]
      refine ih' ⟨by simp [Mem.alloc, hl.next], fun a => ?_⟩ hb3
      simp only [Mem.alloc, hl.next]
      split
      · exact .some h5
      · exact hl.cells a

theorem makeConn_of {ops : Map Nat} {x : ConnDesc} {m : Mem V} {a b : Nat} {o t : Op V} {c : Core V} (h1 : ops.find? x.from' = some a)
    (h2 : ops.find? x.to = some b) (ha : m.heap a = some o) (hb : m.heap b = some t) (hk : Simple o)
    (hc : o.core.connect t.core b x.fromPort x.toPort = .ok (some c)) :
    makeConn ops x m = .ok { m with heap := fun y => if y = a then some { o with core := c } else m.heap y } := by
  unfold makeConn
  rw [mapAt_ok.2 h1]
  dsimp only [bind, Except.bind]
  rw [mapAt_ok.2 h2]
  dsimp only
  have : connectOp a b x.fromPort x.toPort m.st = .ok true (m.st.setOp a { o with core := c }) := by
    unfold connectOp
    simp only [bind, M.bind, getOp, Mem.st]
    rw [ha]
    dsimp only
    rw [hb]
    dsimp only
    have key : localRun a (Op.connect t.core b x.fromPort x.toPort) ⟨m.heap, 0, []⟩ = .ok true (St.setOp ⟨m.heap, 0, []⟩ a { o with core := c }) := by
      unfold localRun
      dsimp only
      rw [ha]
      dsimp only [Op.connect]
      rw [hc]
    refine Eq.trans ?_ key
    unfold Simple at hk
    cases hkind : o.kind with
    | composite => rw [hkind] at hk; exact hk.elim
    | _ => rfl
  rw [this]
  rfl

theorem makeConn_junk {ops : Map Nat} {x : ConnDesc} {m m' n : Mem V} (hm : Making ops m) (hl : MemLike m n) (h : makeConn ops x m = .ok m') :
    ∃ n', makeConn ops x n = .ok n' ∧ MemLike m' n' := by
  obtain ⟨a, b, o, t, c, h1, h2, ha, hb, hc, rfl⟩ := makeConn_ok (fun a o ho => (hm.built a o ho).simple) h
  have la := hl.cells a
  have lb := hl.cells b
  rw [ha] at la
  rw [hb] at lb
  cases hna : n.heap a with
  | none => rw [hna] at la; cases la
  | some o' =>
    cases hnb : n.heap b with
    | none => rw [hnb] at lb; cases lb
    | some t' =>
      rw [hna] at la
      rw [hnb] at lb
      cases la with
      | some la =>
        cases lb with
        | some lb =>
          have hs : Simple o' := by
            have := (hm.built a o ha).simple
            exact (simple_of_fresh (SameParams.fresh la)).1 this
          rw [la.1, lb.1] at hc
          refine ⟨_, makeConn_of h1 h2 hna hnb hs hc, hl.next, fun y => ?_⟩
          dsimp only
          split
          · exact .some ⟨rfl, la.2⟩
          · exact hl.cells y

theorem makeConns_junk {ops : Map Nat} (js : List (Json V)) : ∀ {m m' n : Mem V}, Making ops m → MemLike m n → makeConns ops js m = .ok m' →
    ∃ n', makeConns ops js n = .ok n' ∧ MemLike m' n' := by
  induction js with
  | nil => intro m m' n _ hl h; cases h; exact ⟨n, rfl, hl⟩
  | cons j js ih =>
    intro m m' n hm hl h
    obtain ⟨x, h1, h⟩ := bind_eq_ok.1 h
    obtain ⟨m1, h2, h⟩ := bind_eq_ok.1 h
    obtain ⟨n1, h3, hl1⟩ := makeConn_junk hm hl h2
    obtain ⟨n', h4, hl'⟩ := ih (makeConn_making hm h2) hl1 h
    refine ⟨n', ?_, hl'⟩
    rw [makeConns, h1]
    dsimp only [bind, Except.bind]
    rw [h3]
    exact h4

/-- Programs created from the same description differ in uninitialised members only. -/
theorem initWith_junk {junk : Junk V} (junk' : Junk V) {json : Str} {j : Json V} {P : Prog V} (hf : Flat j) (h : Prog.initWith junk json j = .ok P) :
    ∃ Q, Prog.initWith junk' json j = .ok Q ∧ Q.json = P.json ∧ Q.ops = P.ops ∧ Q.entry = P.entry ∧ Q.filter = P.filter ∧
      ∀ a, Both SameParams (P.st.heap a) (Q.st.heap a) := by
  obtain ⟨entry, os, ops, m, cs, m', a, o, h1, h2, h3, h4, h5, h6, h7, h8, h9⟩ := initWith_ok h
  have hm := buildOps_making _ (fun x hx => hf os h3 x hx) making_start h4
  obtain ⟨n, hn, hl⟩ := buildOps_junk (junk' := junk') (n := ⟨fun _ => none, 0⟩) _ (fun x hx => hf os h3 x hx) ⟨rfl, fun _ => .none⟩ h4
  obtain ⟨n', hn', hl'⟩ := makeConns_junk _ hm hl h6
  have la := hl'.cells a
  rw [h8] at la
  cases hna : n'.heap a with
  | none => rw [hna] at la; cases la
  | some o' =>
    rw [hna] at la
    cases la with
    | some la =>
      have key : Prog.initWith junk' json j = if o'.core.ctrlIn.isEmpty then
          .ok { json := json, ops := ops, entry := entry, filter := readFilter j, st := n'.st } else .ok (Prog.empty json) := by
        unfold Prog.initWith
        rw [h1]
        dsimp only [bind, Except.bind]
        rw [if_neg h2, h3.at]
        dsimp only
        rw [hn]
        dsimp only
        rw [h5.at]
        dsimp only
        rw [hn']
        dsimp only
        rw [h7]
        dsimp only
        rw [mop_ok.2 hna]
      rcases h9 with ⟨hc, rfl⟩ | ⟨hc, rfl⟩
      · refine ⟨{ json := json, ops := ops, entry := entry, filter := readFilter j, st := n'.st }, ?_, rfl, rfl, rfl, rfl, hl'.cells⟩
        rw [key, if_pos (by rw [← la.1, hc]; rfl)]
      · refine ⟨Prog.empty json, ?_, rfl, rfl, rfl, rfl, fun _ => .none⟩
        rw [key, if_neg (by rw [← la.1]; simpa using hc)]

/-! ## Writing and reading back the operators -/

theorem serializeOps_ok {h : Nat → Option (Op V)} (ops : Map Nat) (hl : ∀ e ∈ ops, ∃ o, h e.2 = some o) :
    ∃ bs, serializeOps h ops = .ok bs ∧ ops.length ≤ bs.length := by
  induction ops with
  | nil => exact ⟨[], rfl, Nat.le_refl _⟩
  | cons e ops ih =>
    obtain ⟨bs, h1, h2⟩ := ih fun e' he => hl e' (List.mem_cons_of_mem _ he)
    obtain ⟨o, ho⟩ := hl e (by simp)
    obtain ⟨id, a⟩ := e
    refine ⟨putStr id ++ o.collect ++ bs, ?_, ?_⟩
    · unfold serializeOps
      dsimp only at ho
      rw [ho]
      dsimp only
      rw [h1]
      rfl
    · have : (putStr id).length = 8 + id.length := by simp [putStr, putSize, length_leBytes]
      simp only [List.length_cons, List.length_append, this]
      omega

theorem restoreOps_reads {ops : Map Nat} {h : Nat → Option (Op V)} {new : Nat → Op V} (rest : Map Nat) : ∀ {n : Nat} {s : St V} {bs : Bytes},
    (∀ e ∈ rest, Word e.1.length ∧ ops.find? e.1 = some e.2 ∧ ∃ o o0, h e.2 = some o ∧ s.heap e.2 = some o0 ∧ Reads o0.restore o.collect (new e.2)) →
    (rest.map (·.2)).Nodup → serializeOps h rest = .ok bs → rest.length ≤ n →
    ∃ s', restoreOps ops n s bs = .ok s' ∧ ∀ a, s'.heap a = if a ∈ rest.map (·.2) then some (new a) else s.heap a := by
  induction rest with
  | nil =>
    intro n s bs _ _ hb _
    cases hb
    refine ⟨s, ?_, fun a => by simp⟩
    cases n <;> simp [restoreOps]
  | cons e rest ih =>
    intro n s bs hr hn hb hlen
    obtain ⟨id, a⟩ := e
    obtain ⟨hw, hf, o, o0, h1, h2, h3⟩ := hr (id, a) (by simp)
    dsimp only at hw hf h1 h2 h3
    unfold serializeOps at hb
    rw [h1] at hb
    dsimp only at hb
    obtain ⟨bs', hb', hb2⟩ := bind_eq_ok.1 hb
    cases hb2
    cases n with
    | zero => simp at hlen
    | succ n =>
      have hne : putStr id ++ o.collect ++ bs' ≠ [] := by
        intro he
        have := congrArg List.length he
        have h8 : (putStr id).length = 8 + id.length := by simp [putStr, putSize, length_leBytes]
        simp only [List.length_append, h8, List.length_nil] at this
        omega
      rw [List.map_cons, List.nodup_cons] at hn
      have ih' := @ih n (s.setOp a (new a)) bs' ?_ hn.2 hb' (by simpa using hlen)
      · obtain ⟨s', h4, h5⟩ := ih'
        refine ⟨s', ?_, ?_⟩
        · unfold restoreOps
          rw [if_neg hne, List.append_assoc, reads_str hw]
          dsimp only
          rw [hf]
          dsimp only
          rw [h2]
          dsimp only
          rw [h3]
          exact h4
        · intro b
          rw [h5, setOp_heap, List.map_cons]
          by_cases hb : b = a
          · subst hb
            simp
          · simp only [List.mem_cons, hb, false_or, if_false]
      · intro e he
        obtain ⟨g1, g2, o', o0', g3, g4, g5⟩ := hr e (List.mem_cons_of_mem _ he)
        refine ⟨g1, g2, o', o0', g3, ?_, g5⟩
        rw [setOp_heap, if_neg, g4]
        intro hea
        exact hn.1 (List.mem_map.2 ⟨e, he, hea⟩)

/-! ## Calls -/

theorem call_frame (fuel : Nat) (P : Prog V) (c : Feed V) : (c.on fuel P).state.json = P.json ∧ (c.on fuel P).state.ops = P.ops ∧
    (c.on fuel P).state.entry = P.entry ∧ (c.on fuel P).state.filter = P.filter := by
  cases c with
  | receive msgs =>
    have := receiveDebug_frame (fuel := fuel) (P := P) (msgs := msgs)
    unfold Feed.on Prog.receive
    dsimp only
    split
    · rename_i h; rw [h] at this; exact this
    · rename_i h; rw [h] at this; exact this
  | receiveDebug msgs => exact receiveDebug_frame

theorem call_steps (fuel : Nat) (P : Prog V) (hw : HeapWF P.st.heap) (c : Feed V) : Steps Any P.st (c.on fuel P).state.st := by
  cases c with
  | receive msgs =>
    have := receiveDebug_steps (S := Any) (fuel := fuel) (P := P) (msgs := msgs) (ctx_any hw) (fun _ _ => trivial)
    unfold Feed.on Prog.receive
    dsimp only
    split
    · rename_i h; rw [h] at this; exact this
    · rename_i h; rw [h] at this; exact this
  | receiveDebug msgs => exact receiveDebug_steps (ctx_any hw) (fun _ _ => trivial)

theorem afterCalls_cons (fuel : Nat) (P : Prog V) (c : Feed V) (cs : List (Feed V)) : afterCalls fuel P (c :: cs) = afterCalls fuel (c.on fuel P).state cs := by
  rw [afterCalls]
  cases c.on fuel P <;> rfl

theorem afterCalls_frame (fuel : Nat) (cs : List (Feed V)) : ∀ P : Prog V, (afterCalls fuel P cs).json = P.json ∧ (afterCalls fuel P cs).ops = P.ops ∧
    (afterCalls fuel P cs).entry = P.entry ∧ (afterCalls fuel P cs).filter = P.filter := by
  induction cs with
  | nil => intro P; exact ⟨rfl, rfl, rfl, rfl⟩
  | cons c cs ih =>
    intro P
    rw [afterCalls_cons]
    obtain ⟨h1, h2, h3, h4⟩ := ih (c.on fuel P).state
    obtain ⟨g1, g2, g3, g4⟩ := call_frame fuel P c
    exact ⟨h1.trans g1, h2.trans g2, h3.trans g3, h4.trans g4⟩

theorem afterCalls_steps (fuel : Nat) (cs : List (Feed V)) : ∀ P : Prog V, HeapWF P.st.heap → Steps Any P.st (afterCalls fuel P cs).st := by
  induction cs with
  | nil => intro P _; exact Steps.refl _ _
  | cons c cs ih =>
    intro P hw
    rw [afterCalls_cons]
    have h1 := call_steps fuel P hw c
    exact h1.trans (ih _ (h1.shape.wf hw))

theorem replies_alike {T : Prop → Op V → Op V → Prop} {h0 : Nat → Option (Op V)} (hT : Twins T) (hw : HeapWF h0)
    (hs : ∀ a o, h0 a = some o → Simple o) (hc : ConnsOK h0) (fuel : Nat) (cs : List (Feed V)) :
    ∀ {P Q : Prog V}, ProgLike T h0 P Q → replies fuel P cs = replies fuel Q cs := by
  induction cs with
  | nil => intro P Q _; rfl
  | cons c cs ih =>
    intro P Q h
    have : AnswerLike T h0 (c.on fuel P) (c.on fuel Q) := by
      cases c with
      | receive msgs => exact receive_alike hT hw hs hc fuel h msgs
      | receiveDebug msgs => exact receiveDebug_alike hT hw hs hc fuel h msgs
    rw [replies, replies]
    cases hx : c.on fuel P <;> cases hy : c.on fuel Q <;> rw [hx, hy] at this <;> first | exact this.elim | skip
    · dsimp only
      rw [this.1, ih this.2]
    · dsimp only
      rw [this.1, ih this.2]

theorem afterCalls_alike {T : Prop → Op V → Op V → Prop} {h0 : Nat → Option (Op V)} (hT : Twins T) (hw : HeapWF h0)
    (hs : ∀ a o, h0 a = some o → Simple o) (hc : ConnsOK h0) (fuel : Nat) (cs : List (Feed V)) :
    ∀ {P Q : Prog V}, ProgLike T h0 P Q → ProgLike T h0 (afterCalls fuel P cs) (afterCalls fuel Q cs) := by
  induction cs with
  | nil => intro P Q h; exact h
  | cons c cs ih =>
    intro P Q h
    have : AnswerLike T h0 (c.on fuel P) (c.on fuel Q) := by
      cases c with
      | receive msgs => exact receive_alike hT hw hs hc fuel h msgs
      | receiveDebug msgs => exact receiveDebug_alike hT hw hs hc fuel h msgs
    rw [afterCalls_cons, afterCalls_cons]
    cases hx : c.on fuel P <;> cases hy : c.on fuel Q <;> rw [hx, hy] at this <;> first | exact this.elim | exact ih this.2

theorem Revived.collect {p : Prop} {o o' : Op V} (h : Revived p o o') : o'.collect = o.collect := by
  cases h with
  | same => rfl
  | cumSum => rfl

theorem serialize_alike {h0 : Nat → Option (Op V)} {P Q : Prog V} (h : ProgLike Revived h0 P Q) : Q.serialize = P.serialize := by
  have key : ∀ ops, serializeOps Q.st.heap ops = serializeOps P.st.heap ops := by
    intro ops
    induction ops with
    | nil => rfl
    | cons e ops ih =>
      obtain ⟨id, a⟩ := e
      unfold serializeOps
      have := h.st.cells a
      rw [ih]
      cases hp : P.st.heap a <;> cases hq : Q.st.heap a <;> rw [hp, hq] at this <;> cases this
      rename_i hr
      dsimp only
      rw [hr.collect]
  unfold Prog.serialize
  rw [key, h.ops, h.json]

theorem find?_of_mem {β : Type} {m : Map β} (hs : m.Sorted) {k : Str} {v : β} (h : (k, v) ∈ m) : m.find? k = some v := by
  induction m with
  | nil => cases h
  | cons e m ih =>
    obtain ⟨k', v'⟩ := e
    rw [Map.find?_cons]
    unfold Map.Sorted Map.keys at hs
    rw [List.map_cons, List.pairwise_cons] at hs
    rcases List.mem_cons.1 h with h | h
    · cases h
      simp
    · rw [if_neg]
      · exact ih hs.2 h
      · rintro rfl
        have := hs.1 k' (List.mem_map.2 ⟨_, h, rfl⟩)
        rw [strLt_irrefl] at this
        cases this

theorem Making.nodup {ops : Map Nat} {m : Mem V} (h : Making ops m) : (ops.map (·.2)).Nodup := by
  refine List.Nodup.map_on ?_ ?_
  · rintro ⟨k, a⟩ hx ⟨k', a'⟩ hy (rfl : a = a')
    obtain ⟨o, h1, h2⟩ := h.indexed.listed k a (find?_of_mem h.sorted hx)
    obtain ⟨o', h3, h4⟩ := h.indexed.listed k' a (find?_of_mem h.sorted hy)
    rw [h1] at h3
    cases h3
    rw [← h2, ← h4]
  · have := h.sorted
    unfold Map.Sorted Map.keys at this
    rw [List.pairwise_map] at this
    refine this.imp ?_
    rintro a b hab rfl
    rw [strLt_irrefl] at hab
    cases hab

theorem initWith_making {junk : Junk V} {json : Str} {j : Json V} {P : Prog V} (hf : Flat j) (h : Prog.initWith junk json j = .ok P) :
    ∃ m, Making P.ops m ∧ P.st = m.st := by
  rcases initWith_flat hf h with rfl | h
  · exact ⟨_, making_start, rfl⟩
  · exact h

/-- Restoring a program from the snapshot of any later state. -/
theorem restored [LosslessBits V] {parse : Parser V} {junk : Junk V} (junk' : Junk V) {json : Str} {j : Json V} {P : Prog V}
    (hj : parse json = .ok j) (hf : Flat j) (hcr : Prog.create parse junk json = .ok P) (hr : NoRsi P) (fuel : Nat) (cs : List (Feed V))
    (hfit : ProgFits (afterCalls fuel P cs)) :
    ∃ bytes Q, (afterCalls fuel P cs).serialize = .ok bytes ∧ Prog.ofBytes parse junk' bytes = .ok Q ∧
      ProgLike Revived P.st.heap (afterCalls fuel P cs) Q := by
  unfold Prog.create at hcr
  rw [hj] at hcr
  dsimp only at hcr
  obtain ⟨m, hm, hst⟩ := initWith_making hf hcr
  obtain ⟨Q0, hq, q1, q2, q3, q4, q5⟩ := initWith_junk junk' hf hcr
  obtain ⟨m0, hm0, hst0⟩ := initWith_making hf hq
  have hb : ∀ a o, P.st.heap a = some o → Connected o := by rw [hst]; exact hm.built
  have hb0 : ∀ a o, Q0.st.heap a = some o → Connected o := by rw [hst0]; exact hm0.built
  have hw : HeapWF P.st.heap := fun a o ho => (hb a o ho).start.wf
  have hsteps := afterCalls_steps fuel cs P hw
  obtain ⟨f1, f2, f3, f4⟩ := afterCalls_frame fuel cs P
  obtain ⟨evs, _, _, htr, _⟩ := hsteps.trace
  have hj0 : P.json = json := by
    obtain ⟨_, _, _, _, _, _, _, _, _, _, _, _, _, _, _, _, h | h⟩ := initWith_ok hcr
    · obtain ⟨_, rfl⟩ := h; rfl
    · obtain ⟨_, rfl⟩ := h; rfl
  have key : ∀ a, ∃ n, ∀ o, (afterCalls fuel P cs).st.heap a = some o → ∃ o0', Q0.st.heap a = some o0' ∧ Reads o0'.restore o.collect n ∧ Revived False o n := by
    intro a
    cases ho : (afterCalls fuel P cs).st.heap a with
    | none => exact ⟨Op.newIdentity [], fun o h => (by cases h)⟩
    | some o =>
      obtain ⟨o0, ho0, _⟩ := hsteps.shape.get' ho
      have e := htr a o0 ho0 (hb a o0 ho0).simple
      rw [ho] at e
      have e := Option.some.inj e
      have lq := q5 a
      rw [ho0] at lq
      cases hqa : Q0.st.heap a with
      | none => rw [hqa] at lq; cases lq
      | some o0' =>
        rw [hqa] at lq
        cases lq with
        | some lq =>
          have hfo := hfit.ops a o ho
          rw [e] at hfo
          have hfr : (after o0 (actsOf a evs)).fresh = o0.fresh := after_fresh (hb a o0 ho0).start.wf (actsOf a evs)
          by_cases hcov : Covered o0
          · refine ⟨o, fun o' h => ?_⟩
            cases h
            refine ⟨o0', rfl, ?_, .same o⟩
            rw [e]
            have : Reads o0'.restore (after o0 (actsOf a evs)).collect (after o0 (actsOf a evs)) := by
              refine reads_op (hb0 a o0' hqa).start (hfr.trans (SameParams.fresh lq)) ((hb a o0 ho0).start.tidy.after _) hfo ?_
              have h2 : (after o0 (actsOf a evs)).kind.fresh = o0.kind.fresh := congrArg Op.kind hfr
              unfold Covered at hcov
              cases h3 : (after o0 (actsOf a evs)).kind <;> rw [h3] at h2 <;> try rfl
              · cases h4 : o0.kind <;> rw [h4] at h2 hcov <;> first | (cases h2; done) | exact hcov.elim
              · cases h4 : o0.kind <;> rw [h4] at h2 hcov <;> first | (cases h2; done) | exact hcov.elim
            exact this
          · have : ∃ acc, o0.kind = .cumSum acc := by
              unfold Covered at hcov
              cases h4 : o0.kind with
              | cumSum acc => exact ⟨acc, rfl⟩
              | rsi x => exact absurd h4 (hr a o0 ho0 x)
              | _ => rw [h4] at hcov; exact absurd trivial hcov
            obtain ⟨acc0, hk⟩ := this
            have hcs := ((hb a o0 ho0).isCs hk).after (actsOf a evs)
            rw [← e] at hcs
            have hk' : o0'.kind = .cumSum acc0 := by
              rcases lq.2 with h | ⟨_, _, _, _, _, h, _⟩
              · rw [← h, hk]
              · rw [hk] at h; cases h
            obtain ⟨id', outs', acc', sum', data', tp', e', hd', ht'⟩ := (hb0 a o0' hqa).isCs hk'
            obtain ⟨id, outs, acc, sum, data, tp, e2, hd, ht⟩ := hcs
            refine ⟨csOp id' outs' acc sum' data' tp', fun o' h => ?_⟩
            cases h
            refine ⟨o0', rfl, ?_, ?_⟩
            · have hko : o.kind = .cumSum acc := by rw [e2]; rfl
              have := reads_cumSum hk' hko
              rw [e'] at this ⊢
              exact this
            · have hids : o.fresh = o0'.fresh := by rw [e]; exact hfr.trans (SameParams.fresh lq)
              rw [e2, e'] at hids
              have i1' : id = id' := congrArg (fun o : Op V => o.core.id) hids
              have i2' : outs = outs' := congrArg (fun o : Op V => o.core.outputs) hids
              subst i1' i2'
              rw [e2]
              exact .cumSum id outs acc sum sum' data data' tp tp' hd hd' ht ht' False.elim
  choose new hnew using key
  have hlist : ∀ e ∈ P.ops, ∃ o, (afterCalls fuel P cs).st.heap e.2 = some o := by
    rintro ⟨k, a⟩ he
    obtain ⟨o, h1, h2⟩ := hm.indexed.listed k a (find?_of_mem hm.sorted he)
    obtain ⟨o', h3, _⟩ := hsteps.shape.get (by rw [hst]; exact h1)
    exact ⟨o', h3⟩
  obtain ⟨bs, hbs, hlen⟩ := serializeOps_ok P.ops hlist
  obtain ⟨s', hs', hcell⟩ := restoreOps_reads (ops := P.ops) (h := (afterCalls fuel P cs).st.heap) (new := new) P.ops (n := bs.length) (s := Q0.st) (bs := bs)
    (by
      rintro ⟨k, a⟩ he
      obtain ⟨o, ho⟩ := hlist _ he
      obtain ⟨o0', h1, h2, _⟩ := hnew a o ho
      have hfi := find?_of_mem hm.sorted he
      exact ⟨hfit.ids k a (by rw [f2]; exact hfi), hfi, o, o0', ho, h1, h2⟩) hm.nodup hbs hlen
  refine ⟨putStr json ++ bs, { Q0 with st := s' }, ?_, ?_, ?_⟩
  · unfold Prog.serialize
    rw [f2, hbs, f1, hj0]
    rfl
  · have hwj : Word json.length := by have := hfit.json; rw [f1, hj0] at this; exact this
    unfold Prog.ofBytes
    rw [reads_str hwj]
    dsimp only [bind, Except.bind]
    unfold Prog.create
    rw [hj]
    dsimp only
    rw [hq]
    dsimp only
    rw [q2, hs']
  · refine ⟨f1.trans q1.symm, f2.trans q2.symm, f3.trans q3.symm, f4.trans q4.symm, ?_, hsteps.shape⟩
    intro a
    dsimp only
    rw [hcell]
    cases ho : (afterCalls fuel P cs).st.heap a with
    | none =>
      have hp : P.st.heap a = none := by
        cases h : P.st.heap a with
        | none => rfl
        | some o =>
          obtain ⟨o', h', _⟩ := hsteps.shape.get h
          rw [ho] at h'
          cases h'
      have lq := q5 a
      rw [hp] at lq
      rw [if_neg]
      · cases hqa : Q0.st.heap a with
        | none => exact .none
        | some _ => rw [hqa] at lq; cases lq
      · intro hmem
        obtain ⟨e, he, rfl⟩ := List.mem_map.1 hmem
        obtain ⟨o, h⟩ := hlist e he
        rw [ho] at h
        cases h
    | some o =>
      obtain ⟨o0', h1, h2, h3⟩ := hnew a o ho
      rw [if_pos]
      · exact .some h3
      · obtain ⟨o0, ho0, _⟩ := hsteps.shape.get' ho
        have hfi := hm.indexed.all a o0 (by rw [hst] at ho0; exact ho0)
        exact List.mem_map.2 ⟨_, find?_mem hfi, rfl⟩

end Rtbot
