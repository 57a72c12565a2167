import Verif.Spec.Python
import Verif.Props.Reports

namespace Rtbot
open Spec
variable {V : Type}

/-! ## Columns -/

/-- The messages of a report with the names of their columns. -/
def flatOp (id : Str) (x : OpMsg V) : List (Str × Msg V) := x.flatMap fun e => e.2.map fun m => (joinName id e.1, m)

@[inherit_doc flatOp] def flat (r : ProgMsg V) : List (Str × Msg V) := r.flatMap fun e => flatOp e.1 e.2

/-- The messages for a column. -/
def picked (k : Str) (l : List (Str × Msg V)) : List (Msg V) := (l.filter fun e => e.1 = k).map (·.2)

theorem picked_append (k : Str) (l l' : List (Str × Msg V)) : picked k (l ++ l') = picked k l ++ picked k l' := by
  unfold picked
  rw [List.filter_append, List.map_append]

theorem picked_same (k : Str) (ms : List (Msg V)) : picked k (ms.map fun m => (k, m)) = ms := by
  unfold picked
  induction ms with
  | nil => rfl
  | cons m ms ih => simpa using ih

theorem picked_other {k k' : Str} (h : k ≠ k') (ms : List (Msg V)) : picked k' (ms.map fun m => (k, m)) = [] := by
  unfold picked
  induction ms with
  | nil => rfl
  | cons m ms ih => simpa [h] using ih

/-- The columns hold what `g` says and there is no column without a reason. -/
def ColsGood (wire : V → Option V) (c : Columns V) (g : Str → List (Msg V)) (K : Str → Prop) : Prop :=
  (∀ k, ColumnOf wire c k (g k)) ∧ ∀ k, c.find? k ≠ none → K k

theorem pyMsgs_good {wire : V → Option V} {key : Str} : ∀ {ms : List (Msg V)} {c : Columns V} {g : Str → List (Msg V)} {K : Str → Prop},
    ColsGood wire c g K → c.find? key ≠ none → (∀ m ∈ ms, (wire m.value).isSome = true) →
    ∃ c', pyMsgs wire key ms c = .ok c' ∧ ColsGood wire c' (fun k => g k ++ if k = key then ms else []) K := by
  intro ms
  induction ms with
  | nil => intro c g K h _ _; exact ⟨c, rfl, by simpa using h.1, h.2⟩
  | cons m ms ih =>
    intro c g K h hk hm
    obtain ⟨⟨ts, vs⟩, hf⟩ := Option.ne_none_iff_exists'.1 hk
    obtain ⟨v, hv⟩ := Option.isSome_iff_exists.1 (hm m (by simp))
    have hg : ColsGood wire (c.put key (ts ++ [m.time], vs ++ [v])) (fun k => g k ++ if k = key then [m] else []) K := by
      refine ⟨fun k => ?_, fun k hk' => ?_⟩
      · have := h.1 k
        unfold ColumnOf at this ⊢
        rw [Map.find?_put]
        by_cases he : k = key
        · subst he
          rw [hf] at this
          simp [this.1, this.2, hv]
        · rw [if_neg he]
          dsimp only
          rw [if_neg he, List.append_nil]
          exact this
      · rw [Map.find?_put] at hk'
        split at hk'
        · next he => subst he; exact h.2 k hk
        · exact h.2 k hk'
    obtain ⟨c', h1, h2⟩ := ih hg (by rw [Map.find?_put_self]; simp) fun x hx => hm x (List.mem_cons_of_mem _ hx)
    refine ⟨c', ?_, fun k => ?_, h2.2⟩
    · unfold pyMsgs
      rw [hf]
      simp only [hv]
      exact h1
    · have := h2.1 k
      by_cases he : k = key
      · simpa [he] using this
      · simpa [he] using this

theorem pyPorts_good {wire : V → Option V} {id : Str} : ∀ {x : OpMsg V} {c : Columns V} {g : Str → List (Msg V)} {K : Str → Prop},
    ColsGood wire c g K → (∀ e ∈ flatOp id x, (wire e.2.value).isSome = true) → (∀ e ∈ x, K (joinName id e.1)) →
    ∃ c', pyPorts wire id x c = .ok c' ∧ ColsGood wire c' (fun k => g k ++ picked k (flatOp id x)) K := by
  intro x
  induction x with
  | nil => intro c g K h _ _; exact ⟨c, rfl, by simpa [flatOp, picked] using h.1, h.2⟩
  | cons e x ih =>
    obtain ⟨p, ms⟩ := e
    intro c g K h hm hK
    have h0 : ColsGood wire (c.emplace (joinName id p) ([], [])) g K := by
      refine ⟨fun k => ?_, fun k hk => ?_⟩
      · have := h.1 k
        unfold ColumnOf at this ⊢
        rw [Map.find?_emplace]
        by_cases he : k = joinName id p
        · rw [if_pos he]
          rw [he] at this ⊢
          cases hf : c.find? (joinName id p) with
          | none =>
            rw [hf] at this
            simp only at this
            rw [this]
            exact ⟨rfl, rfl⟩
          | some y => rw [hf] at this; exact this
        · rw [if_neg he]
          exact this
      · rw [Map.find?_emplace] at hk
        split at hk
        · next he => rw [he]; exact hK (p, ms) (by simp)
        · exact h.2 k hk
    have hne : (c.emplace (joinName id p) ([], [])).find? (joinName id p) ≠ none := by
      rw [Map.find?_emplace, if_pos rfl]
      cases c.find? (joinName id p) <;> simp
    obtain ⟨c1, h1, h2⟩ := pyMsgs_good (ms := ms) h0 hne fun m hmm => hm (joinName id p, m) (by
      unfold flatOp
      simp only [List.flatMap_cons, List.mem_append, List.mem_map]
      exact Or.inl ⟨m, hmm, rfl⟩)
    obtain ⟨c2, h3, h4⟩ := ih h2 (fun e he => hm e (by
      unfold flatOp at he ⊢
      rw [List.flatMap_cons]
      exact List.mem_append_right _ he)) fun e he => hK e (List.mem_cons_of_mem _ he)
    refine ⟨c2, ?_, fun k => ?_, h4.2⟩
    · unfold pyPorts
      rw [h1]
      exact h3
    · have := h4.1 k
      dsimp only at this
      have hs : flatOp id ((p, ms) :: x) = (ms.map fun m => (joinName id p, m)) ++ flatOp id x := rfl
      dsimp only
      rw [hs, picked_append, ← List.append_assoc]
      by_cases he : k = joinName id p
      · rw [if_pos he] at this
        rw [he] at this ⊢
        rw [picked_same]
        exact this
      · rw [if_neg he] at this
        rw [picked_other fun h => he h.symm]
        exact this

theorem pyCollect_good {wire : V → Option V} : ∀ {r : ProgMsg V} {c : Columns V} {g : Str → List (Msg V)} {K : Str → Prop},
    ColsGood wire c g K → (∀ e ∈ flat r, (wire e.2.value).isSome = true) → (∀ e ∈ r, ∀ y ∈ e.2, K (joinName e.1 y.1)) →
    ∃ c', pyCollect wire r c = .ok c' ∧ ColsGood wire c' (fun k => g k ++ picked k (flat r)) K := by
  intro r
  induction r with
  | nil => intro c g K h _ _; exact ⟨c, rfl, by simpa [flat, picked] using h.1, h.2⟩
  | cons e r ih =>
    obtain ⟨id, x⟩ := e
    intro c g K h hm hK
    have hs : flat ((id, x) :: r) = flatOp id x ++ flat r := rfl
    obtain ⟨c1, h1, h2⟩ := pyPorts_good h (fun e he => hm e (by rw [hs]; exact List.mem_append_left _ he)) fun y hy => hK (id, x) (by simp) y hy
    obtain ⟨c2, h3, h4⟩ := ih h2 (fun e he => hm e (by rw [hs]; exact List.mem_append_right _ he)) fun e he => hK e (List.mem_cons_of_mem _ he)
    refine ⟨c2, ?_, fun k => ?_, h4.2⟩
    · unfold pyCollect
      rw [h1]
      exact h3
    · dsimp only
      rw [hs, picked_append, ← List.append_assoc]
      exact h4.1 k

/-! ## Reports without empty entries -/

theorem joinName_inj {id id' p p' : Str} (hp : (58 : UInt8) ∉ p) (hp' : (58 : UInt8) ∉ p') (h : joinName id p = joinName id' p') : id = id' ∧ p = p' := by
  unfold joinName at h
  have h := congrArg List.reverse h
  simp only [List.reverse_append, List.reverse_cons, List.reverse_nil, List.nil_append, List.singleton_append] at h
  have key : ∀ (a b a' b' : Str), (58 : UInt8) ∉ a → (58 : UInt8) ∉ a' → a ++ 58 :: b = a' ++ 58 :: b' → a = a' ∧ b = b' := by
    intro a
    induction a with
    | nil =>
      intro b a' b' _ ha' h
      cases a' with
      | nil => simpa using h
      | cons c a' =>
        simp only [List.nil_append, List.cons_append, List.cons.injEq] at h
        exact absurd (h.1 ▸ List.mem_cons_self ..) ha'
    | cons c a ih =>
      intro b a' b' ha ha' h
      cases a' with
      | nil =>
        simp only [List.nil_append, List.cons_append, List.cons.injEq] at h
        exact absurd (h.1 ▸ List.mem_cons_self ..) ha
      | cons c' a' =>
        simp only [List.cons_append, List.cons.injEq] at h
        obtain ⟨rfl, h⟩ := h
        obtain ⟨rfl, rfl⟩ := ih b a' b' (fun hc => ha (List.mem_cons_of_mem _ hc)) (fun hc => ha' (List.mem_cons_of_mem _ hc)) h
        exact ⟨rfl, rfl⟩
  obtain ⟨h1, h2⟩ := key _ _ _ _ (by simpa using hp) (by simpa using hp') h
  exact ⟨List.reverse_inj.1 h2, List.reverse_inj.1 h1⟩

theorem find_of_mem {β : Type} {m : Map β} (hs : m.Sorted) {k : Str} {v : β} (h : (k, v) ∈ m) : m.find? k = some v := by
  induction m with
  | nil => cases h
  | cons e m ih =>
    obtain ⟨k', v'⟩ := e
    rw [Map.find?_cons]
    rcases List.mem_cons.1 h with h | h
    · cases h; rw [if_pos rfl]
    · have : strLt k' k = true := hs.head_lt (List.mem_map.2 ⟨_, h, rfl⟩)
      rw [if_neg (strLt_ne this)]
      exact ih hs.tail h

theorem mem_flat {r : ProgMsg V} (hn : NoEmptyEntries r) {k : Str} {m : Msg V} (h : (k, m) ∈ flat r) :
    ∃ id p, k = joinName id p ∧ m ∈ listed r id p := by
  unfold flat at h
  obtain ⟨⟨id, x⟩, hx, h⟩ := List.mem_flatMap.1 h
  unfold flatOp at h
  obtain ⟨⟨p, ms⟩, hp, h⟩ := List.mem_flatMap.1 h
  obtain ⟨m', hm, he⟩ := List.mem_map.1 h
  cases he
  have h1 := find_of_mem hn.1 hx
  have h2 := find_of_mem (hn.2 id x h1).2.1 hp
  refine ⟨id, p, rfl, ?_⟩
  unfold listed msgsOn
  rw [h1]
  simp only [h2]
  exact hm

/-- The messages for a column are those that the report lists for the port. -/
theorem picked_flat {r : ProgMsg V} (hn : NoEmptyEntries r) (hc : ∀ id p, listed r id p ≠ [] → (58 : UInt8) ∉ p) {id p : Str} (hp : (58 : UInt8) ∉ p) :
    picked (joinName id p) (flat r) = listed r id p := by
  have hport : ∀ (i : Str) (x : OpMsg V), x.Sorted → (∀ e ∈ x, joinName i e.1 = joinName id p → i = id ∧ e.1 = p) → (i = id ∨ ∀ e ∈ x, joinName i e.1 ≠ joinName id p) →
      picked (joinName id p) (flatOp i x) = if i = id then msgsOn p x else [] := by
    intro i x
    induction x with
    | nil => intro _ _ _; simp [flatOp, picked, msgsOn]
    | cons e x ih =>
      obtain ⟨q, ms⟩ := e
      intro hs hj hor
      have hsplit : flatOp i ((q, ms) :: x) = (ms.map fun m => (joinName i q, m)) ++ flatOp i x := rfl
      rw [hsplit, picked_append, ih hs.tail (fun e he => hj e (List.mem_cons_of_mem _ he)) (hor.imp_right fun h e he => h e (List.mem_cons_of_mem _ he))]
      by_cases he : joinName i q = joinName id p
      · obtain ⟨rfl, rfl⟩ := hj (q, ms) (by simp) he
        rw [picked_same, if_pos rfl, if_pos rfl]
        unfold msgsOn
        rw [Map.find?_cons, if_pos rfl]
        have : Map.find? x q = none := by
          rw [Map.find?_none_iff]
          intro hmem
          exact strLt_ne (hs.head_lt hmem) rfl
        rw [this]
        simp
      · rw [picked_other he, List.nil_append]
        by_cases hi : i = id
        · subst hi
          rw [if_pos rfl, if_pos rfl]
          unfold msgsOn
          rw [Map.find?_cons, if_neg fun hq : q = p => he (hq ▸ rfl)]
        · rw [if_neg hi, if_neg hi]
  have hgood : ∀ e ∈ r, e.2.Sorted ∧ ∀ y ∈ e.2, joinName e.1 y.1 = joinName id p → e.1 = id ∧ y.1 = p := by
    rintro ⟨i, x⟩ hx
    have h1 := find_of_mem hn.1 hx
    refine ⟨(hn.2 i x h1).2.1, ?_⟩
    rintro ⟨q, ms⟩ hy hj
    have h2 := find_of_mem (hn.2 i x h1).2.1 hy
    have h3 : listed r i q ≠ [] := by
      unfold listed msgsOn
      rw [h1]
      simp only [h2]
      exact (hn.2 i x h1).2.2 q ms h2
    exact joinName_inj (hc i q h3) hp hj
  have hall : ∀ (l : ProgMsg V), l.Sorted → (∀ e ∈ l, e.2.Sorted ∧ ∀ y ∈ e.2, joinName e.1 y.1 = joinName id p → e.1 = id ∧ y.1 = p) →
      picked (joinName id p) (flat l) = listed l id p := by
    intro l
    induction l with
    | nil => intro _ _; rfl
    | cons e l ih =>
      obtain ⟨i, x⟩ := e
      intro hs hg
      have hsplit : flat ((i, x) :: l) = flatOp i x ++ flat l := rfl
      have h1 := hg (i, x) (by simp)
      rw [hsplit, picked_append, ih hs.tail fun e he => hg e (List.mem_cons_of_mem _ he)]
      rw [hport i x h1.1 h1.2 (by
        by_cases hi : i = id
        · exact Or.inl hi
        · exact Or.inr fun y hy hj => hi (h1.2 y hy hj).1)]
      unfold listed
      rw [Map.find?_cons]
      by_cases hi : i = id
      · subst hi
        rw [if_pos rfl, if_pos rfl]
        have : Map.find? l i = none := by
          rw [Map.find?_none_iff]
          intro hmem
          exact strLt_ne (hs.head_lt hmem) rfl
        rw [this]
        simp
      · rw [if_neg hi, if_neg hi, List.nil_append]
  exact hall r hn.1 hgood

/-! ## Filling the buffer -/

theorem put_last {β : Type} (k : Str) (v : β) : ∀ m : Map β, (∀ k' ∈ m.keys, strLt k' k = true) → m.put k v = m ++ [(k, v)] := by
  intro m h
  induction m with
  | nil => rfl
  | cons e m ih =>
    obtain ⟨k', v'⟩ := e
    have h1 : strLt k' k = true := h k' (by simp [Map.keys])
    have h2 := ih fun x hx => h x (by simp only [Map.keys, List.map_cons]; exact List.mem_cons_of_mem _ hx)
    unfold Map.put
    rw [if_neg (strLt_ne h1), if_neg (by rw [strLt_asymm h1]; simp), h2]
    rfl

variable [Num V]

theorem pyFill_ok {id : Str} {t : UInt64} : ∀ {ports : List Str} {vs : List V} {F : Factory V}, F.programs.has id = true →
    (∀ k ∈ (F.buffered id).keys, ∀ p ∈ ports, strLt k p = true) → ports.Pairwise (fun p q => strLt p q = true) → vs.length ≤ ports.length →
    ∃ F', pyFill id t ports vs F = .ok () F' ∧ F'.programs = F.programs ∧ F'.buffered id = F.buffered id ++ rowMsgs ports (t, vs) ∧
      ∀ b, b ≠ id → F'.buffered b = F.buffered b := by
  intro ports
  induction ports with
  | nil =>
    intro vs F _ _ _ hl
    have : vs = [] := List.eq_nil_of_length_eq_zero (Nat.le_zero.1 hl)
    subst this
    exact ⟨F, rfl, rfl, by simp [rowMsgs], fun _ _ => rfl⟩
  | cons p ports ih =>
    intro vs F hh hk hs hl
    cases vs with
    | nil => exact ⟨F, rfl, rfl, by simp [rowMsgs], fun _ _ => rfl⟩
    | cons v vs =>
      have hpush : pushMsg (F.buffered id) p ⟨t, v⟩ = F.buffered id ++ [(p, [⟨t, v⟩])] := by
        unfold pushMsg
        have : (F.buffered id).find? p = none := by
          rw [Map.find?_none_iff]
          intro hm
          exact strLt_ne (hk p hm p (by simp)) rfl
        rw [this]
        exact put_last _ _ _ fun k hkm => hk k hkm p (by simp)
      have hadd : F.add id p ⟨t, v⟩ = .ok true { F with buffer := F.buffer.put id (F.buffered id ++ [(p, [⟨t, v⟩])]) } := by
        unfold Factory.add
        rw [if_pos hh, hpush]
      have hb : Factory.buffered { F with buffer := F.buffer.put id (F.buffered id ++ [(p, [⟨t, v⟩])]) } id = F.buffered id ++ [(p, [⟨t, v⟩])] := by
        simp [Factory.buffered]
      rw [List.pairwise_cons] at hs
      obtain ⟨F', h1, h2, h3, h4⟩ := ih (vs := vs) (F := { F with buffer := F.buffer.put id (F.buffered id ++ [(p, [⟨t, v⟩])]) }) hh (by
        rw [hb]
        intro k hkm q hq
        simp only [Map.keys, List.map_append, List.map_cons, List.map_nil, List.mem_append, List.mem_singleton] at hkm
        rcases hkm with hkm | rfl
        · exact hk k hkm q (List.mem_cons_of_mem _ hq)
        · exact hs.1 q hq) hs.2 (by simpa using hl)
      refine ⟨F', ?_, h2, ?_, fun b hbn => ?_⟩
      · unfold pyFill
        rw [hadd]
        exact h1
      · rw [h3, hb, List.append_assoc]
        rfl
      · rw [h4 b hbn]
        exact buffered_congr (Map.find?_put_ne _ _ hbn)

/-- What the loop over the rows does. -/
theorem pyRows_run {py : PyEnv V} {junk : Junk V} {json : Str} {j : Json V} {P : Prog V} (hP : Prog.initWith junk json j = .ok P) {id : Str}
    {ports : List Str} (hs : ports.Pairwise fun p q => strLt p q = true) : ∀ {rows : List (UInt64 × List V)} {Q : Prog V} {c : Columns V} {F : Factory V}
    {g : Str → List (Msg V)} {K : Str → Prop}, Recalls P Q → F.programs.find? id = some Q → F.buffered id = [] → (∀ r ∈ rows, r.2.length ≤ ports.length) →
    ColsGood py.wire c g K →
    match debugRun py.api.fuel (tableCalls ports rows) Q with
    | .err e Q' => (∀ rs, ∀ k Q'', debugRun py.api.fuel ((tableCalls ports rows).take k) Q = .ok rs Q'' → ∀ r ∈ rs, ∀ o p, ∀ m ∈ listed r o p, (py.wire m.value).isSome = true) →
      ∃ F', pyRows py id ports rows c F = .err e F' ∧ F'.programs.find? id = some Q' ∧ ∀ b, b ≠ id → SameView b F F'
    | .ok rs Q' => (∀ r ∈ rs, ∀ o p, ∀ m ∈ listed r o p, (py.wire m.value).isSome = true) →
      ∃ c' F', pyRows py id ports rows c F = .ok c' F' ∧ F'.programs.find? id = some Q' ∧ F'.buffered id = [] ∧ (∀ b, b ≠ id → SameView b F F') ∧
        Recalls P Q' ∧ ColsGood py.wire c' (fun k => g k ++ rs.flatMap fun r => picked k (flat r))
          (fun k => K k ∨ ∃ r ∈ rs, ∃ o p, k = joinName o p ∧ listed r o p ≠ []) ∧
        ∀ r ∈ rs, NoEmptyEntries r ∧ ∀ o p, listed r o p ≠ [] → (58 : UInt8) ∉ p := by
  intro rows
  induction rows with
  | nil =>
    intro Q c F g K hq hf hb _ hc
    show _ → _
    intro _
    refine ⟨c, F, rfl, hf, hb, fun b _ => SameView.refl b F, hq, ⟨fun k => ?_, fun k hk => Or.inl (hc.2 k hk)⟩, fun r hr => by cases hr⟩
    simpa using hc.1 k
  | cons row rows ih =>
    obtain ⟨t, vs⟩ := row
    intro Q c F g K hq hf hb hl hc
    obtain ⟨F1, h1, h2, h3, h4⟩ := pyFill_ok (t := t) (vs := vs) (has_of_find hf) (by rw [hb]; intro k hk; cases hk) hs (hl (t, vs) (by simp))
    rw [hb, List.nil_append] at h3
    have hf1 : F1.programs.find? id = some Q := by rw [h2]; exact hf
    have hl' : ∀ r ∈ rows, r.2.length ≤ ports.length := fun r hr => hl r (List.mem_cons_of_mem _ hr)
    have hrows : ∀ F2 rep, F1.processBuffer true py.api.fuel id = .ok rep F2 → ∀ c2, pyCollect py.wire rep c = .ok c2 →
        pyRows py id ports ((t, vs) :: rows) c F = pyRows py id ports rows c2 F2 := by
      intro F2 rep hp c2 hc2
      conv_lhs => unfold pyRows
      rw [h1]
      simp only [hp, hc2]
    by_cases hv : vs = []
    · subst hv
      have hcalls : tableCalls ports ((t, []) :: rows) = tableCalls ports rows := rfl
      have hp : F1.processBuffer true py.api.fuel id = .ok [] F1 := by
        rw [processBuffer_eq hf1, if_pos]
        rw [h3]
        simp [rowMsgs]
      have hb1 : F1.buffered id = [] := by rw [h3]; simp [rowMsgs]
      have hview : ∀ b, b ≠ id → SameView b F F1 := fun b hbn => ⟨by rw [h2], h4 b hbn⟩
      rw [hcalls, hrows F1 [] hp c rfl]
      have := ih (c := c) hq hf1 hb1 hl' hc
      revert this
      cases debugRun py.api.fuel (tableCalls ports rows) Q with
      | err e Q' =>
        intro this hw
        obtain ⟨F', g1, g2, g3⟩ := this hw
        exact ⟨F', g1, g2, fun b hbn => (hview b hbn).trans (g3 b hbn)⟩
      | ok rs Q' =>
        intro this hw
        obtain ⟨c', F', g1, g2, g3, g4, g5⟩ := this hw
        exact ⟨c', F', g1, g2, g3, fun b hbn => (hview b hbn).trans (g4 b hbn), g5⟩
    · have hne : (!vs.isEmpty) = true := by cases vs <;> simp_all
      have hcalls : tableCalls ports ((t, vs) :: rows) = rowMsgs ports (t, vs) :: tableCalls ports rows := by
        unfold tableCalls
        rw [List.filter_cons_of_pos (by simpa using hne)]
        rfl
      have hmne : rowMsgs ports (t, vs) ≠ [] := by
        have := hl (t, vs) (by simp)
        cases vs with
        | nil => exact absurd rfl hv
        | cons v vs =>
          cases ports with
          | nil => simp at this
          | cons p ports => simp [rowMsgs]
      have hp : F1.processBuffer true py.api.fuel id = match Q.receiveDebug py.api.fuel (rowMsgs ports (t, vs)) with
          | .err e P' => .err e { F1 with programs := F1.programs.put id P' }
          | .ok r P' => .ok r ⟨F1.programs.put id P', F1.buffer.erase id⟩ := by
        rw [processBuffer_eq hf1, h3, if_neg hmne]
        rfl
      rw [hcalls]
      unfold debugRun
      cases hd : Q.receiveDebug py.api.fuel (rowMsgs ports (t, vs)) with
      | err e Q1 =>
        rw [hd] at hp
        intro _
        refine ⟨{ F1 with programs := F1.programs.put id Q1 }, ?_, by simp, fun b hbn => ?_⟩
        · unfold pyRows
          rw [h1]
          simp only [hp]
        · exact ⟨(Map.find?_put_ne _ _ hbn).trans (by rw [h2]), h4 b hbn⟩
      | ok r Q1 =>
        rw [hd] at hp
        have hw1 := hq.shape.wf (created_wf hP)
        obtain ⟨_, _, _, hn⟩ := C29_report _ _ _ _ _ hw1 hd
        have hcol : ∀ o p, listed r o p ≠ [] → (58 : UInt8) ∉ p := fun o p hlp => by
          obtain ⟨_, _, _, _, _, _, h⟩ := listed_declared hP hq hd hlp
          exact h
        have hq1 : Recalls P Q1 := by
          have h := answer_recalls true py.api.fuel hw1 (rowMsgs ports (t, vs))
          have h' : (Q.answer true py.api.fuel (rowMsgs ports (t, vs))).state = Q1 := by
            show (Q.receiveDebug py.api.fuel (rowMsgs ports (t, vs))).state = Q1
            rw [hd]
            rfl
          rw [h'] at h
          exact hq.trans h
        have hview : ∀ b, b ≠ id → SameView b F ⟨F1.programs.put id Q1, F1.buffer.erase id⟩ := by
          intro b hbn
          refine ⟨(Map.find?_put_ne _ _ hbn).trans (by rw [h2]), ?_⟩
          refine Eq.trans ?_ (h4 b hbn)
          refine buffered_congr ?_
          rw [Map.find?_erase, if_neg hbn]
        have hcollect : (∀ o p, ∀ m ∈ listed r o p, (py.wire m.value).isSome = true) →
            ∃ c2, pyCollect py.wire r c = .ok c2 ∧ ColsGood py.wire c2 (fun k => g k ++ picked k (flat r))
              (fun k => K k ∨ ∃ o p, k = joinName o p ∧ listed r o p ≠ []) := by
          intro hw
          refine pyCollect_good ⟨hc.1, fun k hk => Or.inl (hc.2 k hk)⟩ ?_ ?_
          · rintro ⟨k, m⟩ he
            obtain ⟨o, p, _, hm⟩ := mem_flat hn he
            exact hw o p m hm
          · rintro ⟨o, x⟩ hx ⟨p, ms⟩ hy
            have g1 := find_of_mem hn.1 hx
            have g2 := find_of_mem (hn.2 o x g1).2.1 hy
            refine Or.inr ⟨o, p, rfl, ?_⟩
            unfold listed msgsOn
            rw [g1]
            simp only [g2]
            exact (hn.2 o x g1).2.2 p ms g2
        have next := fun c2 (hc2 : ColsGood py.wire c2 (fun k => g k ++ picked k (flat r)) (fun k => K k ∨ ∃ o p, k = joinName o p ∧ listed r o p ≠ [])) =>
          ih (c := c2) (F := ⟨F1.programs.put id Q1, F1.buffer.erase id⟩) hq1 (by simp) (buffered_erase ..) hl' hc2
        cases hrun : debugRun py.api.fuel (tableCalls ports rows) Q1 with
        | err e Q' =>
          rw [hrun] at next
          simp only [hrun]
          intro hw
          have hw0 : ∀ o p, ∀ m ∈ listed r o p, (py.wire m.value).isSome = true := by
            refine hw [r] 1 Q1 ?_ r (by simp)
            show debugRun _ [rowMsgs ports (t, vs)] Q = _
            unfold debugRun
            rw [hd]
            rfl
          obtain ⟨c2, k1, k2⟩ := hcollect hw0
          obtain ⟨F', g1, g2, g3⟩ := next c2 k2 (by
            intro rs k Q'' hk r' hr'
            refine hw (r :: rs) (k + 1) Q'' ?_ r' (List.mem_cons_of_mem _ hr')
            show (match Q.receiveDebug py.api.fuel (rowMsgs ports (t, vs)) with
              | .err e P' => Res.err e P'
              | .ok r P' => match debugRun py.api.fuel ((tableCalls ports rows).take k) P' with
                | .err e P'' => Res.err e P''
                | .ok rs P'' => Res.ok (r :: rs) P'') = _
            rw [hd]
            simp only [hk])
          exact ⟨F', by rw [hrows _ _ hp c2 k1]; exact g1, g2, fun b hbn => (hview b hbn).trans (g3 b hbn)⟩
        | ok rs Q' =>
          rw [hrun] at next
          simp only [hrun]
          intro hw
          obtain ⟨c2, k1, k2⟩ := hcollect (hw r (by simp))
          obtain ⟨c', F', g1, g2, g3, g4, g5, g6, g7⟩ := next c2 k2 fun r' hr' => hw r' (List.mem_cons_of_mem _ hr')
          refine ⟨c', F', by rw [hrows _ _ hp c2 k1]; exact g1, g2, g3, fun b hbn => (hview b hbn).trans (g4 b hbn), g5, ⟨fun k => ?_, fun k hk => ?_⟩, ?_⟩
          · have := g6.1 k
            dsimp only
            rw [List.flatMap_cons, ← List.append_assoc]
            exact this
          · rcases g6.2 k hk with (h | ⟨o, p, h⟩) | ⟨r', hr', h⟩
            · exact Or.inl h
            · exact Or.inr ⟨r, by simp, o, p, h⟩
            · exact Or.inr ⟨r', List.mem_cons_of_mem _ hr', h⟩
          · intro r' hr'
            rcases List.mem_cons.1 hr' with rfl | hr'
            · exact ⟨hn, hcol⟩
            · exact g7 r' hr'

end Rtbot
