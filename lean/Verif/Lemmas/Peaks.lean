import Verif.Spec.Peaks
import Verif.Spec.Served
import Verif.Lemmas.Trail

/-! # Lemmas: peaks, and streams that are delayed -/

namespace Rtbot.Peaks
open Spec
variable {V : Type}

theorem hasTime_iff {t : UInt64} {s : List (Msg V)} : hasTime t s = true ↔ t ∈ s.map (·.time) := by
  unfold hasTime
  simp

theorem times_nodup {s : List (Msg V)} (h : Increasing s) : (s.map (·.time)).Nodup := by
  rw [List.Nodup, List.pairwise_map]
  exact h.imp fun hlt he => by
    have := UInt64.lt_iff_toNat_lt.1 hlt
    rw [he] at this
    omega

/-- Two streams in the order of time with the same messages are equal. -/
theorem eq_of_mem {s s' : List (Msg V)} (h : Increasing s) (h' : Increasing s') (hm : ∀ x, x ∈ s ↔ x ∈ s') : s = s' := by
  refine List.Perm.eq_of_pairwise (le := fun a b : Msg V => a.time < b.time) (fun a b _ _ hab hba => ?_) h h' ((List.perm_ext_iff_of_nodup (times_nodup h).of_map (times_nodup h').of_map).2 hm)
  have := UInt64.lt_iff_toNat_lt.1 hab
  have := UInt64.lt_iff_toNat_lt.1 hba
  omega

theorem peaks_index [Num V] {n : Nat} {ms : List (Msg V)} : peaks n ms =
    (List.range (ms.length + 1 - n)).filterMap fun i => ((ms.drop i).take n)[n / 2]?.filter fun mid => ((ms.drop i).take n).all fun x => !Num.lt mid.value x.value := by
  unfold peaks windows
  rw [List.filterMap_map]
  rfl

theorem at_index {n i : Nat} {ms : List (Msg V)} {f : Msg V → Bool} {m : Msg V} (h : ((ms.drop i).take n)[n / 2]?.filter f = some m) : ms[i + n / 2]? = some m := by
  rw [Option.filter_eq_some_iff] at h
  have h1 := h.1
  rw [List.getElem?_take] at h1
  split at h1
  · rwa [List.getElem?_drop] at h1
  · cases h1

theorem peaks_mem [Num V] {n : Nat} {ms : List (Msg V)} : ∀ m ∈ peaks n ms, m ∈ ms := by
  intro m hm
  rw [peaks_index] at hm
  obtain ⟨i, _, h⟩ := List.mem_filterMap.1 hm
  exact List.mem_of_getElem? (at_index h)

theorem peaks_increasing [Num V] {n : Nat} {ms : List (Msg V)} (h : Increasing ms) : Increasing (peaks n ms) := by
  rw [peaks_index]
  unfold Increasing
  rw [List.pairwise_filterMap]
  refine (List.pairwise_lt_range).imp fun {i j} hij => ?_
  intro a ha b hb
  obtain ⟨h1, e1⟩ := List.getElem?_eq_some_iff.1 (at_index ha)
  obtain ⟨h2, e2⟩ := List.getElem?_eq_some_iff.1 (at_index hb)
  have := List.pairwise_iff_getElem.1 h (i + n / 2) (j + n / 2) h1 h2 (by omega)
  rwa [e1, e2] at this

/-- What a PeakDetector emits. -/
theorem emitted_peaks [Num V] {n : Nat} (hn : 0 < n) (ms : List (Msg V)) :
    emittedOn o1 (answers (fun h m => if h.length + 1 < n then []
      else match (lastN n (h ++ [m]))[n / 2]? with
        | some mid => if ∀ x ∈ lastN n (h ++ [m]), Num.lt mid.value x.value = false then [(o1, [mid])] else []
        | none => []) [] ms) = peaks n ms := by
  induction ms using List.reverseRecOn with
  | nil => simp [answers, emittedOn, peaks, windows, show 1 - n = 0 by omega]
  | append_singleton ms m ih =>
    rw [Trail.answers_snoc]
    unfold peaks
    rw [Trail.windows_snoc hn, List.filterMap_append]
    unfold peaks at ih
    rw [← ih]
    unfold emittedOn
    rw [List.flatMap_append]
    congr 1
    rw [List.flatMap_singleton, List.nil_append]
    split
    · rfl
    · cases hg : (lastN n (ms ++ [m]))[n / 2]? with
      | none => simp [hg, msgsOn, Map.find?]
      | some mid =>
        rw [List.filterMap_cons, hg]
        by_cases hx : ∀ x ∈ lastN n (ms ++ [m]), Num.lt mid.value x.value = false
        · have : ((lastN n (ms ++ [m])).all fun x => !Num.lt mid.value x.value) = true := List.all_eq_true.2 fun x h => by simp [hx x h]
          dsimp only
          rw [if_pos hx]
          simp only [Option.filter, this, if_true]
          rfl
        · have : ((lastN n (ms ++ [m])).all fun x => !Num.lt mid.value x.value) = false := by
            rw [Bool.eq_false_iff]
            intro h
            exact hx fun x hx => by simpa using List.all_eq_true.1 h x hx
          simp [hx, Option.filter, this, msgsOn, Map.find?]

/-- A window average with a short window, after the first messages, is one with a longer window that looks at its last part. -/
theorem trail_split {n N : Nat} (hn : 0 < n) (hN : n ≤ N) (g : List V → V) (ms : List (Msg V)) :
    trail n g ms = trail n g (ms.take (N - 1)) ++ trail N (fun w => g (w.drop (N - n))) ms := by
  induction ms using List.reverseRecOn with
  | nil => simp [trail, windows, show 1 - n = 0 by omega, show 1 - N = 0 by omega]
  | append_singleton ms m ih =>
    by_cases hl : ms.length + 1 < N
    · rw [List.take_of_length_le (by simp; omega), trail_nil (N := N) (by simp; omega), List.append_nil]
    · rw [Trail.trail_snoc hn, Trail.trail_snoc (by omega), if_neg hl, if_neg (by omega), List.take_append_of_le_length (by omega), ← List.append_assoc, ← ih]
      congr 4
      unfold values lastN
      rw [← List.map_drop, List.drop_drop]
      congr 2
      simp
      omega
where
  trail_nil {N : Nat} {g : List V → V} {ms : List (Msg V)} (h : ms.length < N) : trail N g ms = [] := by
    simp [trail, windows, show ms.length + 1 - N = 0 by omega]

theorem trail_times_mem {n : Nat} {g : List V → V} {ms : List (Msg V)} : ∀ m ∈ trail n g ms, hasTime m.time ms = true := by
  intro m hm
  unfold trail windows at hm
  obtain ⟨w, hw, h⟩ := List.mem_filterMap.1 hm
  obtain ⟨i, _, rfl⟩ := List.mem_map.1 hw
  cases hg : ((ms.drop i).take n).getLast? with
  | none => rw [hg] at h; cases h
  | some l =>
    rw [hg] at h
    cases h
    exact hasTime_iff.2 (List.mem_map.2 ⟨l, List.mem_of_mem_drop (List.mem_of_mem_take (List.mem_of_getLast? hg)), rfl⟩)

theorem trail_increasing {n : Nat} (hn : 0 < n) (g : List V → V) {ms : List (Msg V)} (h : Increasing ms) : Increasing (trail n g ms) := by
  induction ms using List.reverseRecOn with
  | nil => simp [trail, windows, show 1 - n = 0 by omega, Increasing]
  | append_singleton ms m ih =>
    obtain ⟨h1, _, h2⟩ := List.pairwise_append.1 h
    rw [Trail.trail_snoc hn]
    refine List.pairwise_append.2 ⟨ih h1, by split <;> simp, fun a ha b hb => ?_⟩
    split at hb
    · cases hb
    · rw [List.mem_singleton] at hb
      subst hb
      obtain ⟨y, hy, e⟩ := List.mem_map.1 (hasTime_iff.1 (trail_times_mem a ha))
      have := h2 y hy m (by simp)
      rw [← e]
      exact this

/-- A stream whose second part has the times of another one meets it in just this part. -/
theorem atTimes_suffix {pre s s' : List (Msg V)} (hn : ((pre ++ s).map (·.time)).Nodup) (h : s.map (·.time) = s'.map (·.time)) :
    atTimes (commonTimes [pre ++ s, s']) (pre ++ s) = s ∧ atTimes (commonTimes [pre ++ s, s']) s' = s' := by
  have hmem : ∀ t, t ∈ commonTimes [pre ++ s, s'] ↔ t ∈ s.map (·.time) := by
    intro t
    unfold commonTimes
    rw [List.mem_filter, List.all_cons, List.all_nil, Bool.and_true, hasTime_iff, ← h]
    constructor
    · exact fun h => h.2
    · exact fun h => ⟨by rw [List.map_append]; exact List.mem_append_right _ h, h⟩
  unfold atTimes
  constructor
  · rw [List.filter_append]
    have h1 : pre.filter (fun m => (commonTimes [pre ++ s, s']).contains m.time) = [] := by
      rw [List.filter_eq_nil_iff]
      intro m hm hc
      rw [List.contains_iff_mem, hmem] at hc
      rw [List.map_append] at hn
      exact (List.nodup_append.1 hn).2.2 _ (List.mem_map.2 ⟨m, hm, rfl⟩) _ hc rfl
    rw [h1, List.nil_append, List.filter_eq_self]
    intro m hm
    rw [List.contains_iff_mem, hmem]
    exact List.mem_map.2 ⟨m, hm, rfl⟩
  · rw [List.filter_eq_self]
    intro m hm
    rw [List.contains_iff_mem, hmem, h]
    exact List.mem_map.2 ⟨m, hm, rfl⟩

/-- Two window functions with windows of different lengths, matched. -/
theorem matched_windows (f : V → V → Option V) {n N : Nat} (hn : 0 < n) (hN : n ≤ N) (g1 g2 g : List V → V) (hg : ∀ w, f (g1 (w.drop (N - n))) (g2 w) = some (g w)) {ms : List (Msg V)}
    (hinc : Increasing ms) :
    matched f (atTimes (commonTimes [trail n g1 ms, trail N g2 ms]) (trail n g1 ms)) (atTimes (commonTimes [trail n g1 ms, trail N g2 ms]) (trail N g2 ms)) = trail N g ms := by
  have hnd := times_nodup (trail_increasing hn g1 hinc)
  have ht := Trail.trail_times N (fun w => g1 (w.drop (N - n))) g2 ms
  rw [trail_split hn hN g1 ms] at hnd ⊢
  rw [(atTimes_suffix hnd ht).1, (atTimes_suffix hnd ht).2]
  clear hnd ht hinc
  unfold trail matched
  induction windows N ms with
  | nil => rfl
  | cons w ws ih =>
    simp only [List.filterMap_cons]
    cases w.getLast? with
    | none => exact ih
    | some m => simp [hg, ih]

theorem trail_in {n N : Nat} (hn : 0 < n) (hN : n ≤ N) (g1 g2 : List V → V) (ms : List (Msg V)) : TimesIn (trail N g2 ms) (trail n g1 ms) := by
  intro m hm
  rw [hasTime_iff, trail_split hn hN g1 ms, List.map_append, Trail.trail_times N (fun w => g1 (w.drop (N - n))) g2 ms]
  exact List.mem_append_right _ (List.mem_map.2 ⟨m, hm, rfl⟩)

/-- A stream whose times are all in another one is matched completely. -/
theorem common_in {s s' : List (Msg V)} (h : TimesIn s s') : commonTimes [s, s'] = s.map (·.time) := by
  unfold commonTimes
  rw [List.filter_eq_self]
  intro t ht
  obtain ⟨m, hm, rfl⟩ := List.mem_map.1 ht
  rw [List.all_cons, List.all_nil, Bool.and_true]
  exact h m hm

theorem atTimes_in {s s' : List (Msg V)} (h : TimesIn s s') : atTimes (commonTimes [s, s']) s = s ∧ atTimes (commonTimes [s, s']) s' = s'.filter fun m => hasTime m.time s := by
  rw [common_in h]
  constructor
  · unfold atTimes
    rw [List.filter_eq_self]
    intro m hm
    rw [List.contains_iff_mem]
    exact List.mem_map.2 ⟨m, hm, rfl⟩
  · unfold atTimes
    refine List.filter_congr fun m _ => ?_
    rw [Bool.eq_iff_iff, List.contains_iff_mem, hasTime_iff]

/-- The messages at the times of the peaks are the peaks. -/
theorem filter_peaks [Num V] {n : Nat} {ms : List (Msg V)} (h : Increasing ms) : (ms.filter fun m => hasTime m.time (peaks n ms)) = peaks n ms := by
  refine eq_of_mem (h.sublist List.filter_sublist) (peaks_increasing h) fun x => ?_
  rw [List.mem_filter, hasTime_iff]
  constructor
  · rintro ⟨h1, h2⟩
    obtain ⟨y, hy, e⟩ := List.mem_map.1 h2
    have := List.inj_on_of_nodup_map (times_nodup h) h1 (peaks_mem y hy) e.symm
    rw [this]
    exact hy
  · exact fun h => ⟨peaks_mem x h, List.mem_map.2 ⟨x, h, rfl⟩⟩

theorem peaks_in [Num V] {n : Nat} {ms s : List (Msg V)} (h : ∀ m ∈ ms, hasTime m.time s = true) : TimesIn (peaks n ms) s := fun m hm => h m (peaks_mem m hm)

theorem times_self (s : List (Msg V)) : TimesIn s s := fun m hm => hasTime_iff.2 (List.mem_map.2 ⟨m, hm, rfl⟩)

end Rtbot.Peaks
