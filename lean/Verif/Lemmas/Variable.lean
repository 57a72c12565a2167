import Verif.Spec.Variable
import Verif.Lemmas.Feed

/-! # Variable -/

set_option linter.unusedSectionVars false

namespace Rtbot
open Spec
variable {V : Type} [Num V]

namespace Var

theorem latestAt_cons_of_exists {a b : Msg V} {ms : List (Msg V)} {g : Nat} (hb : b ∈ ms) (hg : b.time.toNat ≤ g) :
    latestAt (a :: ms) g = latestAt ms g := by
  unfold latestAt
  rw [List.filter_cons]
  split
  · have : (ms.filter fun m => decide (m.time.toNat ≤ g)) ≠ [] := by
      intro h
      have : b ∈ ms.filter fun m => decide (m.time.toNat ≤ g) := List.mem_filter.2 ⟨hb, by simpa using hg⟩
      rw [h] at this; simp at this
    rw [List.getLast?_cons_of_ne_nil this]
  · rfl

/-- In an increasing list split at `x`, `x` is the latest at `g` when the rest is newer. -/
theorem latestAt_split {pre rest : List (Msg V)} {x : Msg V} {g : Nat} (hx : x.time.toNat ≤ g) (hr : ∀ y ∈ rest, g < y.time.toNat) :
    latestAt (pre ++ x :: rest) g = some x := by
  unfold latestAt
  rw [List.filter_append, List.filter_cons, if_pos (by simpa using hx)]
  have : rest.filter (fun m => decide (m.time.toNat ≤ g)) = [] := by
    rw [List.filter_eq_nil_iff]
    intro y hy
    have := hr y hy
    simp; omega
  rw [this]; simp

theorem varSearch_spec (q : UInt64) : ∀ (ms : List (Msg V)) (a : Msg V), Increasing (a :: ms) → a.time < q →
    (∃ pre x r, varSearch q (a :: ms) = (x :: r, some x.value) ∧ a :: ms = pre ++ x :: r ∧ x.time ≤ q ∧ (∀ y ∈ r, q < y.time) ∧
      (∃ y ∈ a :: ms, q ≤ y.time)) ∨
    (∃ pre x, varSearch q (a :: ms) = ([x], none) ∧ a :: ms = pre ++ [x] ∧ x.time < q ∧ ∀ y ∈ a :: ms, y.time < q) := by
  intro ms
  induction ms with
  | nil =>
    intro a _ ha
    exact Or.inr ⟨[], a, rfl, rfl, ha, by simpa using ha⟩
  | cons b rest ih =>
    intro a hinc ha
    have hinc' : Increasing (b :: rest) := (List.pairwise_cons.1 hinc).2
    have hab := (List.pairwise_cons.1 hinc).1 b (by simp)
    rw [varSearch]
    by_cases h1 : q < b.time
    · have hd : (decide (a.time < q) && decide (q < b.time)) = true := by simp [ha, h1]
      rw [if_pos hd]
      refine Or.inl ⟨[], a, b :: rest, rfl, rfl, UInt64.le_of_lt ha, ?_, ⟨b, by simp, UInt64.le_of_lt h1⟩⟩
      intro y hy
      rcases List.mem_cons.1 hy with rfl | hy
      · exact h1
      · exact UInt64.lt_trans h1 ((List.pairwise_cons.1 hinc').1 y hy)
    · have hd : ¬ (decide (a.time < q) && decide (q < b.time)) = true := by simp [h1]
      rw [if_neg hd]
      by_cases h2 : q = b.time
      · rw [if_pos h2]
        refine Or.inl ⟨[a], b, rest, rfl, rfl, by rw [h2]; exact UInt64.le_refl _, ?_, ⟨b, by simp, by rw [h2]; exact UInt64.le_refl _⟩⟩
        intro y hy
        rw [h2]; exact (List.pairwise_cons.1 hinc').1 y hy
      · rw [if_neg h2]
        have hbq : b.time < q := by
          rw [UInt64.lt_iff_toNat_lt] at *
          rw [← UInt64.toNat_inj] at h2
          omega
        rcases ih b hinc' hbq with ⟨pre, x, r, e1, e2, e3, e4, y, e5, e6⟩ | ⟨pre, x, e1, e2, e3, e4⟩
        · exact Or.inl ⟨a :: pre, x, r, e1, by rw [e2]; rfl, e3, e4, y, List.mem_cons_of_mem _ e5, e6⟩
        · refine Or.inr ⟨a :: pre, x, e1, by rw [e2]; rfl, e3, ?_⟩
          intro y hy
          rcases List.mem_cons.1 hy with rfl | hy
          · exact ha
          · exact e4 y hy

/-- The operator with buffers `d`, `c`, sums `sd`, `sc`. -/
def mk (id : Str) (dflt sd sc : V) (d c : List (Msg V)) (ini : Bool) : Op V :=
  ⟨{ id := id, dataIn := [(i1, ⟨i1, sizeMax, sd, d⟩)], ctrlIn := [(c1, ⟨c1, 1, sc, c⟩)], outIds := [o1], outputs := [], toProcess := [] },
    .variable dflt ini⟩

/-- As `mk`, ignoring `toProcess`, which no `Variable` method reads. -/
def mkT (id : Str) (dflt sd sc : V) (d c : List (Msg V)) (ini : Bool) (tp : List Str) : Op V :=
  { mk id dflt sd sc d c ini with core := { (mk id dflt sd sc d c ini).core with toProcess := tp } }

/-- Invariant: `D` data so far, `Q` queries so far, `P` the pending query. -/
structure Inv (id : Str) (dflt : V) (D Q : List (Msg V)) (P : Option (Msg V)) (o : Op V) : Prop where
  ex : ∃ sd sc d ini tp pre, o = mkT id dflt sd sc d P.toList ini tp ∧ D = pre ++ d ∧
    (ini = false → pre = []) ∧ (ini = true → ∃ a r, d = a :: r ∧ ∃ q ∈ Q, a.time ≤ q.time)
  last : ∀ q, P = some q → ∃ Q', Q = Q' ++ [q]

theorem inv_recvData {id : Str} {dflt : V} {D Q : List (Msg V)} {P : Option (Msg V)} {o : Op V} (hi : Inv id dflt D Q P o)
    (m : Msg V) (p : Str) (hp : p = i1 ∨ p = []) (hlen : D.length < 2 ^ 64 - 1) :
    ∃ o', o.recvData m p = .ok o' ∧ Inv id dflt (D ++ [m]) Q P o' := by
  obtain ⟨⟨sd, sc, d, ini, tp, pre, rfl, hD, h1, h2⟩, hlast⟩ := hi
  have hres : ∀ c : Core V, c.dataIn = [(i1, ⟨i1, sizeMax, sd, d⟩)] → c.resolveData p = i1 := by
    intro c hc
    unfold Core.resolveData
    rcases hp with rfl | rfl
    · have : i1 ≠ [] := by decide
      simp [this]
    · simp [hc]
  have hlt : d.length < sizeMax := by
    have : d.length ≤ D.length := by rw [hD]; simp
    unfold sizeMax; omega
  have hrec : Inp.receive (⟨i1, sizeMax, sd, d⟩ : Inp V) m = .ok ⟨i1, sizeMax, sd +. m.value, d ++ [m]⟩ := by
    unfold Inp.receive
    rw [if_neg (by simp; omega), if_neg (by simp; omega)]
    rfl
  refine ⟨mkT id dflt (sd +. m.value) sc (d ++ [m]) P.toList ini (setInsert tp i1), ?_, ⟨⟨_, sc, _, ini, _, pre, rfl, by rw [hD]; simp, h1, ?_⟩, hlast⟩⟩
  · simp only [Op.recvData, mkT, mk, Core.receiveDataBase]
    rw [hres _ rfl]
    simp [hrec, Map.put]
  · intro h
    obtain ⟨a, r, h3, q, hq, h4⟩ := h2 h
    exact ⟨a, r ++ [m], by rw [h3]; rfl, q, hq, h4⟩

theorem inv_recvCtrl {id : Str} {dflt : V} {D Q : List (Msg V)} {P : Option (Msg V)} {o : Op V} (hi : Inv id dflt D Q P o)
    (m : Msg V) (p : Str) (hp : p = c1 ∨ p = []) :
    ∃ o', o.recvCtrl m p = .ok o' ∧ Inv id dflt D (Q ++ [m]) (some m) o' := by
  obtain ⟨⟨sd, sc, d, ini, tp, pre, rfl, hD, h1, h2⟩, hlast⟩ := hi
  have hres : ∀ (c : Core V) x, c.ctrlIn = [(c1, x)] → c.resolveCtrl p = c1 := by
    intro c x hc
    unfold Core.resolveCtrl
    rcases hp with rfl | rfl
    · have : c1 ≠ [] := by decide
      simp [this]
    · simp [hc]
  have hrec : ∃ s', Inp.receive (⟨c1, 1, sc, P.toList⟩ : Inp V) m = .ok ⟨c1, 1, s', [m]⟩ := by
    cases P with
    | none => exact ⟨_, rfl⟩
    | some x => exact ⟨_, rfl⟩
  obtain ⟨s', hrec⟩ := hrec
  refine ⟨mkT id dflt sd s' d (some m).toList ini tp, ?_, ⟨⟨sd, s', d, ini, tp, pre, rfl, hD, h1, ?_⟩, ?_⟩⟩
  · simp only [Op.recvCtrl, mkT, mk, Core.receiveCtrlBase]
    rw [hres _ _ rfl]
    simp [hrec, Map.put]
  · intro h
    obtain ⟨a, r, h3, q, hq, h4⟩ := h2 h
    exact ⟨a, r, h3, q, List.mem_append_left _ hq, h4⟩
  · intro q hq
    cases hq
    exact ⟨Q, rfl⟩

theorem head?_append_cons {α : Type} (pre : List α) (a : α) (r : List α) :
    ∃ z, (pre ++ a :: r).head? = some z ∧ (pre = [] → z = a) ∧ (z = a ∨ z ∈ pre) := by
  cases pre with
  | nil => exact ⟨a, rfl, fun _ => rfl, Or.inl rfl⟩
  | cons x pre => exact ⟨x, rfl, fun h => (by cases h), Or.inr (by simp)⟩

theorem inv_exec {id : Str} {dflt : V} {D Q : List (Msg V)} {P : Option (Msg V)} {o : Op V} (hi : Inv id dflt D Q P o)
    (hD : Increasing D) (hQ : Increasing Q) :
    ∃ o', o.execData = .ok (varStep dflt ⟨D, P⟩ .execData).2 o' ∧ o.execCtrl = .ok (varStep dflt ⟨D, P⟩ .execCtrl).2 o' ∧
      Inv id dflt D Q (varStep dflt ⟨D, P⟩ .execData).1.pending o' := by
  obtain ⟨⟨sd, sc, d, ini, tp, pre, rfl, hd, h1, h2⟩, hlast⟩ := hi
  have eD : Op.execData (mkT id dflt sd sc d P.toList ini tp) = Op.execVariable (mkT id dflt sd sc d P.toList ini tp) dflt ini := rfl
  have eC : Op.execCtrl (mkT id dflt sd sc d P.toList ini tp) = Op.execVariable (mkT id dflt sd sc d P.toList ini tp) dflt ini := rfl
  have eS : varStep dflt ⟨D, P⟩ .execCtrl = varStep dflt ⟨D, P⟩ .execData := rfl
  rw [eS, eD, eC]
  suffices h : ∃ o', Op.execVariable (mkT id dflt sd sc d P.toList ini tp) dflt ini = .ok (varStep dflt ⟨D, P⟩ .execData).2 o' ∧
      Inv id dflt D Q (varStep dflt ⟨D, P⟩ .execData).1.pending o' by
    obtain ⟨o', ha, hb⟩ := h
    exact ⟨o', ha, ha, hb⟩
  cases P with
  | none =>
    refine ⟨mkT id dflt sd sc d [] ini tp, ?_, ⟨⟨sd, sc, d, ini, tp, pre, rfl, hd, h1, h2⟩, hlast⟩⟩
    cases d <;> rfl
  | some q =>
    obtain ⟨Q', hQ'⟩ := hlast q rfl
    have hqmax : ∀ x ∈ Q, x.time ≤ q.time := by
      intro x hx
      rw [hQ', List.mem_append] at hx
      rcases hx with hx | hx
      · rw [hQ'] at hQ
        exact UInt64.le_of_lt ((List.pairwise_append.1 hQ).2.2 x hx q (by simp))
      · rw [List.mem_singleton] at hx; rw [hx]; exact UInt64.le_refl _
    cases d with
    | nil =>
      have hini : ini = false := by
        cases ini with
        | false => rfl
        | true => obtain ⟨_, _, h, _⟩ := h2 rfl; cases h
      have hD0 : D = [] := by rw [hd, h1 hini]; rfl
      refine ⟨mkT id dflt sd sc [] [q] ini tp, ?_, ⟨⟨sd, sc, [], ini, tp, pre, ?_, hd, h1, h2⟩, ?_⟩⟩
      · rw [hD0]; rfl
      · rw [hD0]; rfl
      · rw [hD0]; exact hlast
    | cons a ms =>
      obtain ⟨z, hz, hz1, hz2⟩ := head?_append_cons pre a ms
      rw [← hd] at hz
      have hza : z.time ≤ a.time := by
        rcases hz2 with h | h
        · rw [h]; exact UInt64.le_refl _
        · rw [hd] at hD
          exact UInt64.le_of_lt ((List.pairwise_append.1 hD).2.2 z h a (by simp))
      have hinc : Increasing (a :: ms) := by
        rw [hd] at hD; exact (List.pairwise_append.1 hD).2.1
      by_cases hlt : q.time < a.time
      · -- the query is older than everything buffered
        have hini : ini = false := by
          cases ini with
          | false => rfl
          | true =>
            obtain ⟨a', r', h, x, hx, hxa⟩ := h2 rfl
            cases h
            have := hqmax x hx
            rw [UInt64.lt_iff_toNat_lt] at hlt
            rw [UInt64.le_iff_toNat_le] at this hxa
            omega
        have hpre := h1 hini
        have hz' := hz1 hpre
        subst hz'
        have hs : varStep dflt ⟨D, some q⟩ .execData = (⟨D, none⟩, [(o1, [⟨q.time, dflt⟩])]) := by
          simp [varStep, varAnswer, hz, hlt]
        rw [hs]
        refine ⟨mkT id dflt sd sc (z :: ms) [] ini tp, ?_, ⟨⟨sd, sc, _, ini, tp, pre, rfl, hd, h1, h2⟩, (by intro _ h; cases h)⟩⟩
        simp [Op.execVariable, mkT, mk, hlt, hini, single]
      · have hnz : ¬ q.time < z.time := by
          rw [UInt64.lt_iff_toNat_lt] at hlt ⊢
          rw [UInt64.le_iff_toNat_le] at hza
          omega
        by_cases heq : q.time = a.time
        · have hlat : latestAt D q.time.toNat = some a := by
            rw [hd, heq]
            apply latestAt_split (Nat.le_refl _)
            intro y hy
            exact UInt64.lt_iff_toNat_lt.1 ((List.pairwise_cons.1 hinc).1 y hy)
          have hany : (D.any fun m => decide (q.time ≤ m.time)) = true := by
            rw [List.any_eq_true]
            exact ⟨a, by rw [hd]; simp, by rw [heq]; simp⟩
          have hs : varStep dflt ⟨D, some q⟩ .execData = (⟨D, none⟩, [(o1, [⟨q.time, a.value⟩])]) := by
            simp only [varStep, varAnswer, hz, hnz, if_false, hany, if_true, hlat, Option.map_some]
          rw [hs]
          refine ⟨mkT id dflt sd sc (a :: ms) [] true tp, ?_, ⟨⟨sd, sc, _, true, tp, pre, rfl, hd, (by intro h; cases h), ?_⟩, (by intro _ h; cases h)⟩⟩
          · have hirr : ¬ a.time < a.time := by simp
            simp [Op.execVariable, mkT, mk, heq, hirr, single]
          · intro _
            exact ⟨a, ms, rfl, q, by rw [hQ']; simp, by rw [heq]; exact UInt64.le_refl _⟩
        · have haq : a.time < q.time := by
            rw [UInt64.lt_iff_toNat_lt] at hlt ⊢
            rw [← UInt64.toNat_inj] at heq
            omega
          rcases varSearch_spec q.time ms a hinc haq with ⟨pre', x, r, e1, e2, e3, e4, y, e5, e6⟩ | ⟨pre', x, e1, e2, e3, e4⟩
          · have hlat : latestAt D q.time.toNat = some x := by
              rw [hd, e2, ← List.append_assoc]
              apply latestAt_split (UInt64.le_iff_toNat_le.1 e3)
              intro y hy
              exact UInt64.lt_iff_toNat_lt.1 (e4 y hy)
            have hany : (D.any fun m => decide (q.time ≤ m.time)) = true := by
              rw [List.any_eq_true]
              exact ⟨y, by rw [hd]; exact List.mem_append_right _ e5, by simpa using e6⟩
            have hs : varStep dflt ⟨D, some q⟩ .execData = (⟨D, none⟩, [(o1, [⟨q.time, x.value⟩])]) := by
              simp only [varStep, varAnswer, hz, hnz, if_false, hany, if_true, hlat, Option.map_some]
            rw [hs]
            refine ⟨mkT id dflt sd sc (x :: r) [] true tp, ?_, ⟨⟨sd, sc, _, true, tp, pre ++ pre', rfl, ?_, (by intro h; cases h), ?_⟩, (by intro _ h; cases h)⟩⟩
            · simp [Op.execVariable, mkT, mk, hlt, heq, e1, single]
            · rw [hd, e2]; simp
            · intro _
              exact ⟨x, r, rfl, q, by rw [hQ']; simp, e3⟩
          · have hany : (D.any fun m => decide (q.time ≤ m.time)) = false := by
              rw [List.any_eq_false]
              intro y hy
              have : y.time < q.time := by
                rw [hd, List.mem_append] at hy
                rcases hy with hy | hy
                · rw [hd] at hD
                  exact UInt64.lt_trans ((List.pairwise_append.1 hD).2.2 y hy a (by simp)) haq
                · exact e4 y hy
              simpa using this
            have hs : varStep dflt ⟨D, some q⟩ .execData = (⟨D, some q⟩, []) := by
              simp [varStep, varAnswer, hz, hnz, hany]
            rw [hs]
            refine ⟨mkT id dflt sd sc [x] [q] true tp, ?_, ⟨⟨sd, sc, _, true, tp, pre ++ pre', rfl, ?_, (by intro h; cases h), ?_⟩, hlast⟩⟩
            · simp [Op.execVariable, mkT, mk, hlt, heq, e1]
            · rw [hd, e2]; simp
            · intro _
              exact ⟨x, [], rfl, q, by rw [hQ']; simp, UInt64.le_of_lt e3⟩

theorem varStep_data (dflt : V) (s : VarSt V) : (varStep dflt s .execData).1.data = s.data := by
  simp only [varStep]
  split
  · rfl
  · split <;> rfl

theorem run {id : Str} {dflt : V} : ∀ (as : List (Act V)) (D Q : List (Msg V)) (P : Option (Msg V)) (o : Op V), Inv id dflt D Q P o →
    (∀ a ∈ as, ValidPort i1 c1 a) → Increasing (D ++ dataOf as) → Increasing (Q ++ ctrlOf as) → D.length + as.length < 2 ^ 64 - 1 →
    results o as = (varRun dflt ⟨D, P⟩ as).map .ok := by
  intro as
  induction as with
  | nil => intros; rfl
  | cons a as ih =>
    intro D Q P o hi hv hD hQ hlen
    have hv' : ∀ a ∈ as, ValidPort i1 c1 a := fun x hx => hv x (List.mem_cons_of_mem _ hx)
    have hva := hv a (by simp)
    simp only [List.length_cons] at hlen
    have execCase : ∀ b : Act V, b = .execData ∨ b = .execCtrl → a = b → dataOf (a :: as) = dataOf as → ctrlOf (a :: as) = ctrlOf as →
        results o (a :: as) = (varRun dflt ⟨D, P⟩ (a :: as)).map .ok := by
      intro b hb hab hd hc
      rw [hd] at hD
      rw [hc] at hQ
      obtain ⟨o', h1, h2, h3⟩ := inv_exec hi (List.Pairwise.sublist (List.sublist_append_left D _) hD)
        (List.Pairwise.sublist (List.sublist_append_left Q _) hQ)
      have hst : (varStep dflt ⟨D, P⟩ .execData).1 = ⟨D, (varStep dflt ⟨D, P⟩ .execData).1.pending⟩ := by
        have := varStep_data dflt (⟨D, P⟩ : VarSt V)
        generalize (varStep dflt ⟨D, P⟩ .execData).1 = s at *
        cases s; simp only at this; rw [this]
      have key := ih D Q _ o' h3 hv' hD hQ (by omega)
      rw [hab]
      rcases hb with rfl | rfl
      · simp only [results, act, h1, varRun, List.map_cons]
        rw [hst, key]
      · have eS : varStep dflt ⟨D, P⟩ .execCtrl = varStep dflt ⟨D, P⟩ .execData := rfl
        simp only [results, act, h2, varRun, List.map_cons]
        rw [eS, hst, key]
    cases a with
    | recvData p m =>
      obtain ⟨o', h1, h2⟩ := inv_recvData hi m p hva (by omega)
      simp only [results, act, h1, varRun, List.map_cons, varStep]
      rw [ih (D ++ [m]) Q P o' h2 hv' (by simpa [dataOf] using hD) (by simpa [ctrlOf] using hQ) (by simp; omega)]
    | recvCtrl p q =>
      obtain ⟨o', h1, h2⟩ := inv_recvCtrl hi q p hva
      simp only [results, act, h1, varRun, List.map_cons, varStep]
      rw [ih D (Q ++ [q]) (some q) o' h2 hv' (by simpa [dataOf] using hD) (by simpa [ctrlOf] using hQ) (by omega)]
    | execData => exact execCase .execData (Or.inl rfl) rfl rfl rfl
    | execCtrl => exact execCase .execCtrl (Or.inr rfl) rfl rfl rfl

end Var
end Rtbot
