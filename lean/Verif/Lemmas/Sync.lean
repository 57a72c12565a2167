import Verif.Spec.Sync
import Verif.Lemmas.Ports
import Verif.Lemmas.Frame
import Verif.Lemmas.Feed

/-! # Synchronisation in Join and its subclasses -/

set_option linter.unusedSectionVars false

namespace Rtbot
open Spec
variable {V : Type} [Num V]

namespace Sync

/-! ## Increasing lists -/

theorem inc_append {a b : List (Msg V)} (h : Increasing (a ++ b)) : Increasing a ∧ Increasing b ∧ ∀ x ∈ a, ∀ y ∈ b, x.time < y.time :=
  List.pairwise_append.1 h

/-- In an increasing list the time determines the message. -/
theorem inc_inj {l : List (Msg V)} (h : Increasing l) {a b : Msg V} (ha : a ∈ l) (hb : b ∈ l) (ht : a.time = b.time) : a = b := by
  induction l with
  | nil => simp at ha
  | cons x l ih =>
    have hx := (List.pairwise_cons.1 h).1
    have hl := (List.pairwise_cons.1 h).2
    rcases List.mem_cons.1 ha with e1 | ha <;> rcases List.mem_cons.1 hb with e2 | hb
    · rw [e1, e2]
    · have := hx b hb; rw [← e1, ht] at this; exact absurd this (UInt64.lt_irrefl _)
    · have := hx a ha; rw [← e2, ht] at this; exact absurd this (UInt64.lt_irrefl _)
    · exact ih hl ha hb

/-- Two strictly increasing lists with the same members are equal. -/
theorem sorted_ext {α : Type} (r : α → α → Prop) (hirr : ∀ a, ¬ r a a) (has : ∀ a b, r a b → ¬ r b a) {l1 l2 : List α}
    (h1 : l1.Pairwise r) (h2 : l2.Pairwise r) (h : ∀ x, x ∈ l1 ↔ x ∈ l2) : l1 = l2 := by
  induction l1 generalizing l2 with
  | nil =>
    cases l2 with
    | nil => rfl
    | cons b l2 => have := (h b).2 (by simp); simp at this
  | cons a l1 ih =>
    cases l2 with
    | nil => have := (h a).1 (by simp); simp at this
    | cons b l2 =>
      rw [List.pairwise_cons] at h1 h2
      have hab : a = b := by
        rcases List.mem_cons.1 ((h a).1 (by simp)) with e | ha
        · exact e
        · rcases List.mem_cons.1 ((h b).2 (by simp)) with e | hb
          · exact e.symm
          · exact absurd (h1.1 b hb) (has _ _ (h2.1 a ha))
      subst hab
      congr 1
      refine ih h1.2 h2.2 ?_
      intro x
      have hx := h x
      simp only [List.mem_cons] at hx
      constructor
      · intro hm
        rcases hx.1 (Or.inr hm) with rfl | h'
        · exact absurd (h1.1 x hm) (hirr x)
        · exact h'
      · intro hm
        rcases hx.2 (Or.inr hm) with rfl | h'
        · exact absurd (h2.1 x hm) (hirr x)
        · exact h'

theorem times_ext {l1 l2 : List UInt64} (h1 : l1.Pairwise (· < ·)) (h2 : l2.Pairwise (· < ·)) (h : ∀ x, x ∈ l1 ↔ x ∈ l2) : l1 = l2 :=
  sorted_ext _ UInt64.lt_irrefl (fun _ _ h => UInt64.not_lt.2 (UInt64.le_of_lt h)) h1 h2 h

theorem msgs_ext {l1 l2 : List (Msg V)} (h1 : Increasing l1) (h2 : Increasing l2) (h : ∀ x, x ∈ l1 ↔ x ∈ l2) : l1 = l2 :=
  sorted_ext (fun a b : Msg V => a.time < b.time) (fun _ => UInt64.lt_irrefl _) (fun _ _ h => UInt64.not_lt.2 (UInt64.le_of_lt h)) h1 h2 h

/-! ## The pieces of `Join::executeData` -/

/-- The messages not older than `t`, from the first such message on. -/
def dropT (t : UInt64) (l : List (Msg V)) : List (Msg V) := l.dropWhile fun m => decide (m.time < t)

theorem dropOlder_data (i : Inp V) (t : UInt64) : (i.dropOlder t).data = dropT t i.data := by
  have : ∀ l s, (Inp.dropOlder.go i t l s).data = dropT t l := by
    intro l
    induction l with
    | nil => intro s; rfl
    | cons m l ih =>
      intro s
      unfold Inp.dropOlder.go
      by_cases h : m.time < t
      · rw [if_pos h, ih]; simp [dropT, h]
      · rw [if_neg h]; simp [dropT, h]
  exact this _ _

theorem dropT_head {t : UInt64} {l : List (Msg V)} {m : Msg V} {ms : List (Msg V)} (h : dropT t l = m :: ms) : ¬ m.time < t := by
  induction l with
  | nil => simp [dropT] at h
  | cons x l ih =>
    by_cases hx : x.time < t
    · simp only [dropT, hx, decide_true, List.dropWhile_cons_of_pos] at h
      exact ih h
    · simp only [dropT, hx, decide_false, Bool.false_eq_true, not_false_eq_true, List.dropWhile_cons_of_neg] at h
      cases h; exact hx

theorem dropT_split (t : UInt64) (l : List (Msg V)) : ∃ d, l = d ++ dropT t l ∧ ∀ m ∈ d, m.time < t :=
  ⟨l.takeWhile fun m => decide (m.time < t), by simp [dropT], by
    intro m hm
    have := List.all_takeWhile (l := l) (p := fun m => decide (m.time < t))
    rw [List.all_eq_true] at this
    simpa using this m hm⟩

theorem dropT_length (t : UInt64) (l : List (Msg V)) : (dropT t l).length ≤ l.length := by
  obtain ⟨d, h, _⟩ := dropT_split t l
  have := congrArg List.length h
  rw [List.length_append] at this
  omega

theorem dropT_self {t : UInt64} {m : Msg V} {ms : List (Msg V)} (h : m.time = t) : dropT t (m :: ms) = m :: ms := by
  simp [dropT, h, UInt64.lt_irrefl]

theorem joinLatest_spec (m : Map (Inp V)) (best : Str × UInt64) :
    (joinLatest m best = none ∧ ∃ e ∈ m, e.2.data = []) ∨
    ∃ ref t, joinLatest m best = some (ref, t) ∧ best.2 ≤ t ∧ (∀ e ∈ m, ∃ x xs, e.2.data = x :: xs ∧ x.time ≤ t) ∧
      ((ref, t) = best ∨ ∃ e ∈ m, e.1 = ref ∧ ∃ x xs, e.2.data = x :: xs ∧ x.time = t) := by
  induction m generalizing best with
  | nil => right; exact ⟨best.1, best.2, rfl, UInt64.le_refl _, by simp, Or.inl rfl⟩
  | cons e m ih =>
    obtain ⟨p, i⟩ := e
    unfold joinLatest
    match hd : i.data with
    | [] => left; exact ⟨rfl, (p, i), by simp, hd⟩
    | x :: xs =>
      simp only
      rcases ih (if best.2 < x.time then (p, x.time) else best) with ⟨h1, e, h2, h3⟩ | ⟨ref, t, h1, h2, h3, h4⟩
      · left; exact ⟨h1, e, List.mem_cons_of_mem _ h2, h3⟩
      · right
        have hb : best.2 ≤ t ∧ x.time ≤ t := by
          split at h2
          · rename_i hlt; exact ⟨UInt64.le_trans (UInt64.le_of_lt hlt) h2, h2⟩
          · rename_i hlt; exact ⟨h2, UInt64.le_trans (UInt64.not_lt.1 hlt) h2⟩
        refine ⟨ref, t, h1, hb.1, ?_, ?_⟩
        · intro e he
          rcases List.mem_cons.1 he with rfl | he
          · exact ⟨x, xs, hd, hb.2⟩
          · exact h3 e he
        · rcases h4 with h4 | ⟨e, he, h5⟩
          · split at h4
            · cases h4; right; exact ⟨(p, i), by simp, rfl, x, xs, hd, rfl⟩
            · exact Or.inl h4
          · right; exact ⟨e, List.mem_cons_of_mem _ he, h5⟩

theorem popAll_spec {m : Map (Inp V)} (h : ∀ e ∈ m, e.2.data ≠ []) :
    ∃ m', popAll m = .ok m' ∧ m'.keys = m.keys ∧ ∀ p i, m.find? p = some i → ∃ i', Map.find? m' p = some i' ∧ i'.data = i.data.tail := by
  induction m with
  | nil => exact ⟨[], rfl, rfl, by simp⟩
  | cons e m ih =>
    obtain ⟨p, i⟩ := e
    obtain ⟨m', h1, h2, h3⟩ := ih (fun e he => h e (List.mem_cons_of_mem _ he))
    match hd : i.data with
    | [] => exact absurd hd (h (p, i) (by simp))
    | x :: xs =>
      refine ⟨(p, { i with data := xs, sum := i.sum -. x.value }) :: m', ?_, ?_, ?_⟩
      · simp only [popAll, Inp.popSum, hd, h1, bind, Except.bind]
      · simp only [Map.keys, List.map_cons] at h2 ⊢; rw [h2]
      · intro q j hj
        rw [Map.find?_cons] at hj ⊢
        split at hj
        · rename_i he; rw [if_pos he]; cases hj; exact ⟨_, rfl, by simp [hd]⟩
        · rename_i he; rw [if_neg he]; exact h3 q j hj

theorem mem_of_find {β : Type} {m : Map β} {p : Str} {i : β} (h : m.find? p = some i) : (p, i) ∈ m := by
  induction m with
  | nil => simp at h
  | cons e m ih =>
    obtain ⟨k, v⟩ := e
    rw [Map.find?_cons] at h
    split at h
    · rename_i he; subst he; cases h; simp
    · exact List.mem_cons_of_mem _ (ih h)

theorem find_of_mem {β : Type} {m : Map β} (hs : m.Sorted) {p : Str} {i : β} (h : (p, i) ∈ m) : m.find? p = some i := by
  induction m with
  | nil => simp at h
  | cons e m ih =>
    obtain ⟨k, v⟩ := e
    rw [Map.find?_cons]
    rcases List.mem_cons.1 h with h | h
    · cases h; rw [if_pos rfl]
    · have hk : p ∈ Map.keys m := List.mem_map.2 ⟨(p, i), h, rfl⟩
      rw [if_neg (strLt_ne (hs.head_lt hk)), ih hs.tail h]

theorem find_map {β : Type} (m : Map β) (f : Str → β → β) (p : Str) :
    Map.find? (m.map fun e => (e.1, f e.1 e.2)) p = (m.find? p).map (f p) := by
  induction m with
  | nil => rfl
  | cons e m ih =>
    obtain ⟨k, v⟩ := e
    rw [List.map_cons, Map.find?_cons, Map.find?_cons]
    split
    · rename_i he; subst he; rfl
    · exact ih

/-- The data buffers of an operator are `D` on the ports `ps`. -/
structure Bufs (ps : List Str) (o : Op V) (D : Str → List (Msg V)) : Prop where
  sorted : o.core.dataIn.Sorted
  keys : o.core.dataIn.keys = ps
  find : ∀ p ∈ ps, ∃ i, o.core.dataIn.find? p = some i ∧ i.data = D p

/-- The kinds that inherit `Join::executeData`. -/
def _root_.Rtbot.Kind.isJoin : Kind V → Bool
  | .join _ | .binary _ | .linear _ => true
  | _ => false

/-- What `processData` returns for fronts `h`. -/
def Emits (K : Kind V) (ps : List Str) (F : (Str → Msg V) → OpMsg V) : Prop :=
  ∀ (o : Op V) (D : Str → List (Msg V)) (h : Str → Msg V), o.kind = K → Bufs ps o D → (∀ p ∈ ps, ∃ ms, D p = h p :: ms) → joinProcess o = .ok (F h)

theorem exec_cases {K : Kind V} (hK : K.isJoin = true) {ps : List Str} (hps : ps ≠ []) {F : (Str → Msg V) → OpMsg V} (hF : Emits K ps F)
    {o : Op V} (hk : o.kind = K) {D : Str → List (Msg V)} (hb : Bufs ps o D) :
    (o.execData = .ok [] o ∧ ∃ p ∈ ps, D p = []) ∨
    (∃ ref ∈ ps, ∃ t x xs, D ref = x :: xs ∧ x.time = t ∧ (∀ p ∈ ps, ∃ y ys, D p = y :: ys ∧ y.time ≤ t) ∧
      ((∃ o', o.execData = .ok [] o' ∧ o'.kind = K ∧ Bufs ps o' (fun p => dropT t (D p)) ∧
          ∃ p ∈ ps, (dropT t (D p)).length < (D p).length ∧ ∀ y ys, dropT t (D p) = y :: ys → t < y.time) ∨
       (∃ h : Str → Msg V, (∀ p ∈ ps, (h p).time = t ∧ ∃ ms, dropT t (D p) = h p :: ms) ∧
          ∃ o', o.execData = .ok (F h) o' ∧ o'.kind = K ∧ Bufs ps o' (fun p => (dropT t (D p)).tail)))) := by
  have hex : o.execData = o.execJoin := by
    unfold Op.execData; rw [hk]; cases K <;> simp_all [Kind.isJoin]
  rw [hex]
  unfold Op.execJoin
  have hmem : ∀ e ∈ o.core.dataIn, e.1 ∈ ps ∧ e.2.data = D e.1 := by
    intro e he
    have h1 : e.1 ∈ ps := by rw [← hb.keys]; exact List.mem_map.2 ⟨e, he, rfl⟩
    obtain ⟨i, h2, h3⟩ := hb.find e.1 h1
    have := find_of_mem hb.sorted (p := e.1) (i := e.2) he
    rw [this] at h2; cases h2
    exact ⟨h1, h3⟩
  match hd : o.core.dataIn with
  | [] => exfalso; apply hps; rw [← hb.keys, hd]; rfl
  | (p0, i0) :: rest =>
    simp only
    have hm0 := hmem (p0, i0) (by rw [hd]; simp)
    match hi0 : i0.data with
    | [] => left; exact ⟨rfl, p0, hm0.1, by rw [← hm0.2]; exact hi0⟩
    | m0 :: _ =>
      simp only
      rw [← hd]
      rcases joinLatest_spec o.core.dataIn (p0, m0.time) with ⟨h1, e, h2, h3⟩ | ⟨ref, t, h1, h2, h3, h4⟩
      · left
        rw [h1]
        refine ⟨rfl, e.1, (hmem e h2).1, ?_⟩
        rw [← (hmem e h2).2]; exact h3
      · right
        rw [h1]
        simp only
        have href : ref ∈ ps ∧ ∃ x xs, D ref = x :: xs ∧ x.time = t := by
          rcases h4 with h4 | ⟨e, he, rfl, x, xs, hx, ht⟩
          · cases h4; exact ⟨hm0.1, m0, _, by rw [← hm0.2]; exact hi0, rfl⟩
          · exact ⟨(hmem e he).1, x, xs, by rw [← (hmem e he).2]; exact hx, ht⟩
        obtain ⟨hrp, x, xs, hx, ht⟩ := href
        refine ⟨ref, hrp, t, x, xs, hx, ht, ?_, ?_⟩
        · intro p hp
          obtain ⟨i, hi1, hi2⟩ := hb.find p hp
          obtain ⟨y, ys, hy⟩ := h3 _ (mem_of_find hi1)
          exact ⟨y, ys, by rw [← hi2]; exact hy.1, hy.2⟩
        · -- the buffers after the removal loop
          have hbd : ∀ c : Core V, Bufs ps (⟨{ c with dataIn := o.core.dataIn.map fun (p, i) => (p, if p = ref then i else i.dropOlder t) }, o.kind⟩ : Op V)
              (fun p => dropT t (D p)) := by
            intro c
            refine ⟨?_, ?_, ?_⟩
            · have : Map.keys (o.core.dataIn.map fun (p, i) => (p, if p = ref then i else i.dropOlder t)) = o.core.dataIn.keys := by
                simp [Map.keys, Function.comp_def]
              unfold Map.Sorted
              rw [this]; exact hb.sorted
            · simp only; rw [← hb.keys]; simp [Map.keys, Function.comp_def]
            · intro p hp
              obtain ⟨i, hi1, hi2⟩ := hb.find p hp
              have := find_map o.core.dataIn (fun p i => if p = ref then i else i.dropOlder t) p
              simp only
              rw [show (o.core.dataIn.map fun (p, i) => (p, if p = ref then i else i.dropOlder t)) =
                (o.core.dataIn.map fun e => (e.1, if e.1 = ref then e.2 else e.2.dropOlder t)) from rfl, this, hi1]
              refine ⟨_, rfl, ?_⟩
              split
              · rename_i he; subst he
                rw [hi2, hx, dropT_self ht]
              · rw [dropOlder_data, hi2]
          have hb' := hbd o.core
          have hmem' : ∀ e ∈ (o.core.dataIn.map fun (p, i) => (p, if p = ref then i else i.dropOlder t)), e.1 ∈ ps ∧ e.2.data = dropT t (D e.1) := by
            intro e he
            have h1 : e.1 ∈ ps := by rw [← hb'.keys]; exact List.mem_map.2 ⟨e, he, rfl⟩
            obtain ⟨i, h2, h3⟩ := hb'.find e.1 h1
            have := find_of_mem hb'.sorted (p := e.1) (i := e.2) he
            rw [this] at h2; cases h2
            exact ⟨h1, h3⟩
          split
          · rename_i hready
            right
            rw [List.all_eq_true] at hready
            have hfr : ∀ p ∈ ps, ∃ y ys, dropT t (D p) = y :: ys ∧ y.time = t := by
              intro p hp
              obtain ⟨i, hi1, hi2⟩ := hb'.find p hp
              have := hready _ (mem_of_find hi1)
              simp only [hi2] at this
              match hdd : dropT t (D p) with
              | [] => rw [hdd] at this; simp at this
              | y :: ys =>
                rw [hdd] at this
                simp only [Bool.not_eq_true', decide_eq_false_iff_not] at this
                exact ⟨y, ys, rfl, UInt64.le_antisymm (UInt64.not_lt.1 this) (UInt64.not_lt.1 (dropT_head hdd))⟩
            refine ⟨fun p => ((dropT t (D p)).head?).getD Msg.zero, ?_, ?_⟩
            · intro p hp
              obtain ⟨y, ys, e1, e2⟩ := hfr p hp
              simp only [e1]; exact ⟨e2, ys, rfl⟩
            · have hproc := hF (⟨{ o.core with dataIn := o.core.dataIn.map fun (p, i) => (p, if p = ref then i else i.dropOlder t) }, o.kind⟩ : Op V) _
                (fun p => ((dropT t (D p)).head?).getD Msg.zero) hk hb' (by
                  intro p hp
                  obtain ⟨y, ys, e1, e2⟩ := hfr p hp
                  rw [e1]; exact ⟨ys, rfl⟩)
              rw [hproc]
              simp only
              obtain ⟨m', e1, e2, e3⟩ := popAll_spec (m := o.core.dataIn.map fun (p, i) => (p, if p = ref then i else i.dropOlder t)) (by
                intro e he
                obtain ⟨q1, q2⟩ := hmem' e he
                obtain ⟨y, ys, q3, _⟩ := hfr e.1 q1
                rw [q2, q3]; simp)
              rw [e1]
              refine ⟨_, rfl, hk, ?_, ?_, ?_⟩
              · simp only; unfold Map.Sorted; rw [e2]; exact hb'.sorted
              · simp only; rw [e2]; exact hb'.keys
              · intro p hp
                obtain ⟨i, hi1, hi2⟩ := hb'.find p hp
                obtain ⟨i', q1, q2⟩ := e3 p i hi1
                exact ⟨i', q1, by rw [q2, hi2]⟩
          · rename_i hready
            left
            refine ⟨_, rfl, hk, hb', ?_⟩
            rw [List.all_eq_true] at hready
            have : ∃ e ∈ (o.core.dataIn.map fun (p, i) => (p, if p = ref then i else i.dropOlder t)), ¬ (match e.2.data with | [] => false | m :: _ => !(decide (t < m.time))) = true := by
              apply Classical.byContradiction
              intro hcon
              apply hready
              intro e he
              apply Classical.byContradiction
              intro h
              exact hcon ⟨e, he, h⟩
            obtain ⟨e, he, hne⟩ := this
            obtain ⟨q1, q2⟩ := hmem' e he
            refine ⟨e.1, q1, ?_, fun y ys hy => ?_⟩
            case refine_2 =>
              rw [q2, hy] at hne
              simp only [Bool.not_eq_true', decide_eq_false_iff_not, Classical.not_not] at hne
              exact hne
            obtain ⟨i, hi1, hi2⟩ := hb.find e.1 q1
            obtain ⟨y, ys, hy, hyt⟩ := h3 _ (mem_of_find hi1)
            rw [hi2] at hy
            rw [q2] at hne
            obtain ⟨d, hd1, hd2⟩ := dropT_split t (D e.1)
            have hlen : (D e.1).length = d.length + (dropT t (D e.1)).length := by
              have := congrArg List.length hd1
              rw [List.length_append] at this; exact this
            have hdne : d ≠ [] := by
              rintro rfl
              rw [List.nil_append, hy] at hd1
              rw [hy, ← hd1] at hne
              simp only [Bool.not_eq_true', decide_eq_false_iff_not] at hne
              exact hne (UInt64.not_lt.2 hyt)
            have := List.length_pos_iff.2 hdne
            omega

/-! ## The invariant -/

/-- `t` can never be common to all ports any more. -/
def Dead (ps : List Str) (R : Str → List (Msg V)) (t : UInt64) : Prop :=
  ∃ s ∈ ps, (∀ m ∈ R s, m.time ≠ t) ∧ ∃ m ∈ R s, t < m.time

/-- `R`: received so far, `D`: still buffered, `T`: matches emitted so far (time and messages). -/
structure Inv (K : Kind V) (ps : List Str) (o : Op V) (R D : Str → List (Msg V)) (T : List (UInt64 × (Str → Msg V))) : Prop where
  kind : o.kind = K
  bufs : Bufs ps o D
  inc : ∀ p ∈ ps, Increasing (R p)
  split : ∀ p ∈ ps, ∃ C, R p = C ++ D p ∧ (∀ m ∈ C, m.time ∈ T.map (·.1) ∨ Dead ps R m.time) ∧ (T.map fun x => x.2 p).Sublist C
  same : ∀ x ∈ T, ∀ p ∈ ps, (x.2 p).time = x.1

/-- Function update. -/
def upd {α : Type} (f : Str → α) (p : Str) (a : α) : Str → α := fun q => if q = p then a else f q

theorem inv_recv {K : Kind V} (hK : K.isJoin = true) {ps : List Str} {o : Op V} {R D : Str → List (Msg V)}
    {T : List (UInt64 × (Str → Msg V))} (hi : Inv K ps o R D T) {p : Str} (hp : p ∈ ps) (hne : p ≠ []) (m : Msg V)
    (hinc : Increasing (R p ++ [m])) :
    ∃ o', o.recvData m p = .ok o' ∧ Inv K ps o' (upd R p (R p ++ [m])) (upd D p (D p ++ [m])) T := by
  obtain ⟨i, hf, hd⟩ := hi.bufs.find p hp
  have hrec : o.recvData m p = .ok { o with core := { o.core with dataIn := o.core.dataIn.put p (i.push m) } } := by
    have : o.core.receiveDataJoin m p = .ok { o.core with dataIn := o.core.dataIn.put p (i.push m) } := by
      unfold Core.receiveDataJoin
      rw [if_neg hne, hf]
    have hk := hi.kind
    unfold Op.recvData
    rw [hk]
    cases K <;> simp_all [Kind.isJoin, bind, Except.bind]
  refine ⟨_, hrec, hi.kind, ⟨?_, ?_, ?_⟩, ?_, ?_, hi.same⟩
  · exact hi.bufs.sorted.put _ _
  · simp only
    rw [Map.keys_put_of_mem _ _ hi.bufs.sorted (by rw [hi.bufs.keys]; exact hp), hi.bufs.keys]
  · intro q hq
    simp only [Map.find?_put, upd]
    split
    · exact ⟨_, rfl, by simp [Inp.push, hd]⟩
    · exact hi.bufs.find q hq
  · intro q hq
    simp only [upd]
    split
    · exact hinc
    · exact hi.inc q hq
  · intro q hq
    obtain ⟨C, h1, h2, h3⟩ := hi.split q hq
    refine ⟨C, ?_, ?_, h3⟩
    · simp only [upd]
      split
      · rename_i he; subst he; rw [h1, List.append_assoc]
      · exact h1
    · intro x hx
      rcases h2 x hx with h | ⟨s, hs, h4, y, hy, hlt⟩
      · exact Or.inl h
      · right
        refine ⟨s, hs, ?_, y, ?_, hlt⟩
        · intro z hz
          simp only [upd] at hz
          split at hz
          · rename_i he; subst he
            rcases List.mem_append.1 hz with hz | hz
            · exact h4 z hz
            · rw [List.mem_singleton] at hz; subst hz
              have := (inc_append hinc).2.2 y hy z (by simp)
              intro heq
              rw [heq] at this
              exact absurd this (UInt64.not_lt.2 (UInt64.le_of_lt hlt))
          · exact h4 z hz
        · simp only [upd]
          split
          · rename_i he; subst he; exact List.mem_append_left _ hy
          · exact hy

theorem inv_exec {K : Kind V} (hK : K.isJoin = true) {ps : List Str} (hps : ps ≠ []) {F : (Str → Msg V) → OpMsg V} (hF : Emits K ps F)
    {o : Op V} {R D : Str → List (Msg V)} {T : List (UInt64 × (Str → Msg V))} (hi : Inv K ps o R D T) :
    (∃ o' D', o.execData = .ok [] o' ∧ Inv K ps o' R D' T ∧ ((∃ p ∈ ps, D p = [] ∧ D' = D) ∨
      ((∃ p ∈ ps, (D' p).length < (D p).length) ∧ ∀ p ∈ ps, (D' p).length ≤ (D p).length))) ∨
    (∃ o' D' x, o.execData = .ok (F x.2) o' ∧ Inv K ps o' R D' (T ++ [x]) ∧ (∀ p ∈ ps, x.2 p ∈ D p) ∧
      ∀ p ∈ ps, (D' p).length < (D p).length) := by
  -- messages older than the front of some buffer are emitted already or can never match
  have key : ∀ ref ∈ ps, ∀ t x xs, D ref = x :: xs → x.time = t → ∀ p ∈ ps, ∀ m ∈ D p, m.time < t →
      m.time ∈ T.map (·.1) ∨ Dead ps R m.time := by
    intro ref href t x xs hx ht p hp m hm hlt
    obtain ⟨C, h1, h2, h3⟩ := hi.split ref href
    by_cases hin : ∀ y ∈ R ref, y.time ≠ m.time
    · right
      exact ⟨ref, href, hin, x, by rw [h1, hx]; simp, by rw [ht]; exact hlt⟩
    · have : ∃ y ∈ R ref, y.time = m.time := by
        apply Classical.byContradiction
        intro hcon
        exact hin fun y hy he => hcon ⟨y, hy, he⟩
      obtain ⟨y, hy, hyt⟩ := this
      rw [h1] at hy
      rcases List.mem_append.1 hy with hy | hy
      · have := h2 y hy; rw [hyt] at this; exact this
      · exfalso
        have hinc := hi.inc ref href
        rw [h1] at hinc
        have hd := (inc_append hinc).2.1
        rw [hx] at hy hd
        rcases List.mem_cons.1 hy with e | hy
        · rw [← hyt, e, ht] at hlt; exact absurd hlt (UInt64.lt_irrefl _)
        · have := (List.pairwise_cons.1 hd).1 y hy
          rw [ht, hyt] at this
          exact absurd hlt (UInt64.not_lt.2 (UInt64.le_of_lt this))
  rcases exec_cases hK hps hF hi.kind hi.bufs with ⟨h1, p, hp, h2⟩ | ⟨ref, href, t, x, xs, hx, ht, hall, h | h⟩
  · left; exact ⟨o, D, h1, hi, Or.inl ⟨p, hp, h2, rfl⟩⟩
  · left
    obtain ⟨o', e1, e2, e3, p, hp, e4⟩ := h
    refine ⟨o', _, e1, ⟨e2, e3, hi.inc, ?_, hi.same⟩, Or.inr ⟨⟨p, hp, e4.1⟩, fun q _ => dropT_length _ _⟩⟩
    intro q hq
    obtain ⟨C, h1, h2, h3⟩ := hi.split q hq
    obtain ⟨d, hd1, hd2⟩ := dropT_split t (D q)
    refine ⟨C ++ d, by rw [List.append_assoc, ← hd1]; exact h1, ?_, h3.trans (List.sublist_append_left _ _)⟩
    intro m hm
    rcases List.mem_append.1 hm with hm | hm
    · exact h2 m hm
    · exact key ref href t x xs hx ht q hq m (by rw [hd1]; exact List.mem_append_left _ hm) (hd2 m hm)
  · right
    obtain ⟨hd, h1, o', e1, e2, e3⟩ := h
    refine ⟨o', _, (t, hd), e1, ⟨e2, e3, hi.inc, ?_, ?_⟩, ?_, ?_⟩
    · intro q hq
      obtain ⟨C, q1, q2, q3⟩ := hi.split q hq
      obtain ⟨d, hd1, hd2⟩ := dropT_split t (D q)
      obtain ⟨hqt, ms, hms⟩ := h1 q hq
      refine ⟨C ++ d ++ [hd q], ?_, ?_, ?_⟩
      · rw [hms, List.tail_cons, q1]
        conv => lhs; rw [hd1, hms]
        simp
      · intro m hm
        rw [List.map_append, List.mem_append]
        rcases List.mem_append.1 hm with hm | hm
        · have : m.time ∈ T.map (·.1) ∨ Dead ps R m.time := by
            rcases List.mem_append.1 hm with hm | hm
            · exact q2 m hm
            · exact key ref href t x xs hx ht q hq m (by rw [hd1]; exact List.mem_append_left _ hm) (hd2 m hm)
          rcases this with h | h
          · exact Or.inl (Or.inl h)
          · exact Or.inr h
        · rw [List.mem_singleton] at hm; subst hm
          left; right; simp [hqt]
      · rw [List.map_append]
        exact (q3.trans (List.sublist_append_left _ _)).append (List.Sublist.refl _)
    · intro y hy p hp
      rcases List.mem_append.1 hy with hy | hy
      · exact hi.same y hy p hp
      · rw [List.mem_singleton] at hy; subst hy; exact (h1 p hp).1
    · intro p hp
      obtain ⟨d, hd1, _⟩ := dropT_split t (D p)
      obtain ⟨_, ms, hms⟩ := h1 p hp
      rw [hd1, hms]; simp
    · intro p hp
      obtain ⟨_, ms, hms⟩ := h1 p hp
      have h2 := congrArg List.length hms
      have h3 : (dropT t (D p)).length ≤ (D p).length := dropT_length _ _
      rw [hms] at h3 ⊢
      simp only [List.length_cons, List.tail_cons] at h3 ⊢
      omega

/-! ## Consequences -/

/-- Emitted times are received on every port. -/
theorem Inv.emitted_received {K : Kind V} {ps : List Str} {o : Op V} {R D : Str → List (Msg V)}
    {T : List (UInt64 × (Str → Msg V))} (hi : Inv K ps o R D T) {x : UInt64 × (Str → Msg V)} (hx : x ∈ T) {p : Str} (hp : p ∈ ps) :
    x.2 p ∈ R p ∧ (x.2 p).time = x.1 := by
  obtain ⟨C, h1, h2, h3⟩ := hi.split p hp
  refine ⟨?_, hi.same x hx p hp⟩
  rw [h1]
  exact List.mem_append_left _ (h3.subset (List.mem_map.2 ⟨x, hx, rfl⟩))

theorem Inv.emitted_inc {K : Kind V} {ps : List Str} {o : Op V} {R D : Str → List (Msg V)}
    {T : List (UInt64 × (Str → Msg V))} (hi : Inv K ps o R D T) {p : Str} (hp : p ∈ ps) :
    Increasing (T.map fun x => x.2 p) ∧ T.map (·.1) = (T.map fun x => x.2 p).map (·.time) := by
  obtain ⟨C, h1, h2, h3⟩ := hi.split p hp
  have hinc := hi.inc p hp
  rw [h1] at hinc
  refine ⟨(inc_append hinc).1.sublist h3, ?_⟩
  rw [List.map_map]
  apply List.map_congr_left
  intro x hx
  exact (hi.same x hx p hp).symm

/-- What was emitted for port `p` is the sublist of the received messages at the emitted times. -/
theorem Inv.emitted_eq {K : Kind V} {ps : List Str} {o : Op V} {R D : Str → List (Msg V)}
    {T : List (UInt64 × (Str → Msg V))} (hi : Inv K ps o R D T) {p : Str} (hp : p ∈ ps) :
    T.map (fun x => x.2 p) = atTimes (T.map (·.1)) (R p) := by
  apply msgs_ext (hi.emitted_inc hp).1 ((hi.inc p hp).filter _)
  intro m
  simp only [List.mem_filter, List.contains_iff_mem]
  constructor
  · intro hm
    obtain ⟨x, hx, rfl⟩ := List.mem_map.1 hm
    obtain ⟨h1, h2⟩ := hi.emitted_received hx hp
    exact ⟨h1, by rw [h2]; exact List.mem_map.2 ⟨x, hx, rfl⟩⟩
  · rintro ⟨h1, h2⟩
    obtain ⟨x, hx, he⟩ := List.mem_map.1 h2
    obtain ⟨h3, h4⟩ := hi.emitted_received hx hp
    have := inc_inj (hi.inc p hp) h1 h3 (by rw [h4, he])
    rw [this]
    exact List.mem_map.2 ⟨x, hx, rfl⟩

theorem hasTime_iff {t : UInt64} {s : List (Msg V)} : hasTime t s = true ↔ ∃ m ∈ s, m.time = t := by
  simp [hasTime]

theorem mem_commonTimes {t : UInt64} {ss : List (List (Msg V))} : t ∈ commonTimes ss ↔ ss ≠ [] ∧ ∀ s ∈ ss, ∃ m ∈ s, m.time = t := by
  cases ss with
  | nil => simp [commonTimes]
  | cons s ss =>
    simp only [commonTimes, List.mem_filter, List.mem_map, List.all_eq_true, hasTime_iff, ne_eq, reduceCtorEq, not_false_eq_true, true_and,
      List.forall_mem_cons]

theorem commonTimes_inc {ss : List (List (Msg V))} (h : ∀ s ∈ ss, Increasing s) : (commonTimes ss).Pairwise (· < ·) := by
  cases ss with
  | nil => exact List.Pairwise.nil
  | cons s ss =>
    unfold commonTimes
    apply List.Pairwise.filter
    rw [List.pairwise_map]
    exact h s (by simp)

/-- C20 on the level of the invariant. `qs` enumerates the ports in any order. -/
theorem Inv.no_loss {K : Kind V} {ps : List Str} {o : Op V} {R D : Str → List (Msg V)}
    {T : List (UInt64 × (Str → Msg V))} (hi : Inv K ps o R D T) {qs : List Str} (hqs : ∀ p, p ∈ qs ↔ p ∈ ps) (hne : ps ≠ []) :
    T.map (·.1) ++ commonTimes (qs.map D) = commonTimes (qs.map R) := by
  have hqne : qs ≠ [] := by
    obtain ⟨p, hp⟩ := List.exists_mem_of_ne_nil _ hne
    exact List.ne_nil_of_mem ((hqs p).2 hp)
  have hDinc : ∀ p ∈ ps, Increasing (D p) := by
    intro p hp
    obtain ⟨C, h1, _⟩ := hi.split p hp
    have := hi.inc p hp
    rw [h1] at this
    exact (inc_append this).2.1
  apply times_ext
  · rw [List.pairwise_append]
    refine ⟨?_, commonTimes_inc ?_, ?_⟩
    · obtain ⟨p, hp⟩ := List.exists_mem_of_ne_nil _ hne
      obtain ⟨h1, h2⟩ := hi.emitted_inc hp
      rw [h2, List.pairwise_map]
      exact h1
    · intro s hs
      obtain ⟨p, hp, rfl⟩ := List.mem_map.1 hs
      exact hDinc p ((hqs p).1 hp)
    · intro a ha b hb
      obtain ⟨x, hx, rfl⟩ := List.mem_map.1 ha
      obtain ⟨p, hp⟩ := List.exists_mem_of_ne_nil _ hne
      obtain ⟨m, hm, hmt⟩ := (mem_commonTimes.1 hb).2 (D p) (List.mem_map.2 ⟨p, (hqs p).2 hp, rfl⟩)
      obtain ⟨C, h1, h2, h3⟩ := hi.split p hp
      have hinc := hi.inc p hp
      rw [h1] at hinc
      have := (inc_append hinc).2.2 (x.2 p) (h3.subset (List.mem_map.2 ⟨x, hx, rfl⟩)) m hm
      rw [hi.same x hx p hp, hmt] at this
      exact this
  · apply commonTimes_inc
    intro s hs
    obtain ⟨p, hp, rfl⟩ := List.mem_map.1 hs
    exact hi.inc p ((hqs p).1 hp)
  · intro t
    rw [List.mem_append, mem_commonTimes, mem_commonTimes]
    constructor
    · rintro (h | ⟨_, h⟩)
      · obtain ⟨x, hx, rfl⟩ := List.mem_map.1 h
        refine ⟨by simpa using hqne, ?_⟩
        intro s hs
        obtain ⟨p, hp, rfl⟩ := List.mem_map.1 hs
        obtain ⟨h1, h2⟩ := hi.emitted_received hx ((hqs p).1 hp)
        exact ⟨_, h1, h2⟩
      · refine ⟨by simpa using hqne, ?_⟩
        intro s hs
        obtain ⟨p, hp, rfl⟩ := List.mem_map.1 hs
        obtain ⟨m, h1, h2⟩ := h (D p) (List.mem_map.2 ⟨p, hp, rfl⟩)
        obtain ⟨C, h3, _⟩ := hi.split p ((hqs p).1 hp)
        exact ⟨m, by rw [h3]; exact List.mem_append_right _ h1, h2⟩
    · rintro ⟨_, h⟩
      by_cases hE : t ∈ T.map (·.1)
      · exact Or.inl hE
      · right
        refine ⟨by simpa using hqne, ?_⟩
        intro s hs
        obtain ⟨p, hp, rfl⟩ := List.mem_map.1 hs
        obtain ⟨m, h1, h2⟩ := h (R p) (List.mem_map.2 ⟨p, hp, rfl⟩)
        obtain ⟨C, h3, h4, _⟩ := hi.split p ((hqs p).1 hp)
        rw [h3] at h1
        rcases List.mem_append.1 h1 with h1 | h1
        · exfalso
          rcases h4 m h1 with h5 | ⟨s, hs, h5, _⟩
          · rw [h2] at h5; exact hE h5
          · obtain ⟨z, h6, h7⟩ := h (R s) (List.mem_map.2 ⟨s, (hqs s).2 hs, rfl⟩)
            exact h5 z h6 (by rw [h7, h2])
        · exact ⟨m, h1, h2⟩

end Sync
end Rtbot
