import Verif.Spec.Trail
import Verif.Spec.Lockstep
import Verif.Lemmas.Numeric

/-! # Lemmas: streams with the same times -/

namespace Rtbot.Trail
open Spec
variable {V : Type}

theorem answers_snoc (f : List (Msg V) → Msg V → OpMsg V) (ms : List (Msg V)) (m : Msg V) : ∀ h, answers f h (ms ++ [m]) = answers f h ms ++ [f (h ++ ms) m] := by
  induction ms with
  | nil => intro h; simp [answers]
  | cons x ms ih => intro h; simp [answers, ih]

theorem windows_snoc {n : Nat} (hn : 0 < n) (ms : List (Msg V)) (m : Msg V) :
    windows n (ms ++ [m]) = windows n ms ++ if ms.length + 1 < n then [] else [lastN n (ms ++ [m])] := by
  unfold windows
  by_cases hl : ms.length + 1 < n
  · rw [if_pos hl]
    rw [show (ms ++ [m]).length + 1 - n = 0 by simp; omega, show ms.length + 1 - n = 0 by omega]
    simp
  · rw [if_neg hl, show (ms ++ [m]).length + 1 - n = (ms.length + 1 - n) + 1 by simp; omega, List.range_succ, List.map_append]
    congr 1
    · refine List.map_congr_left fun i hi => ?_
      have := List.mem_range.1 hi
      rw [List.drop_append_of_le_length (by omega), List.take_append_of_le_length (by simp; omega)]
    · simp only [List.map_cons, List.map_nil, lastN]
      congr 1
      rw [show (ms ++ [m]).length - n = ms.length + 1 - n by simp]
      exact List.take_of_length_le (by simp; omega)

theorem trail_snoc {n : Nat} (hn : 0 < n) (g : List V → V) (ms : List (Msg V)) (m : Msg V) :
    trail n g (ms ++ [m]) = trail n g ms ++ if ms.length + 1 < n then [] else [⟨m.time, g (values (lastN n (ms ++ [m])))⟩] := by
  unfold trail
  rw [windows_snoc hn, List.filterMap_append]
  congr 1
  split
  · rfl
  · next h =>
    have : (lastN n (ms ++ [m])).getLast? = some m := by
      unfold lastN
      rw [List.getLast?_drop]
      simp; omega
    simp [this, values]

/-- What a windowed operator emits. -/
theorem emitted_trail {n : Nat} (hn : 0 < n) (g : List V → V) (ms : List (Msg V)) :
    emittedOn o1 (answers (fun h m => if h.length + 1 < n then [] else [(o1, [⟨m.time, g (values (lastN n (h ++ [m])))⟩])]) [] ms) = trail n g ms := by
  induction ms using List.reverseRecOn with
  | nil =>
    simp [answers, emittedOn, trail, windows, show 1 - n = 0 by omega]
  | append_singleton ms m ih =>
    rw [answers_snoc, trail_snoc hn, ← ih]
    unfold emittedOn
    rw [List.flatMap_append]
    congr 1
    rw [List.flatMap_singleton, List.nil_append]
    split
    · rfl
    · simp [msgsOn, Map.find?]

theorem atTimes_self {ss : List (List (Msg V))} {s : List (Msg V)} (hs : s ∈ ss) (h : ∀ s' ∈ ss, s'.map (·.time) = s.map (·.time)) : atTimes (commonTimes ss) s = s := by
  unfold atTimes
  rw [List.filter_eq_self]
  intro m hm
  rw [List.contains_iff_mem]
  have hall : ∀ s' ∈ ss, m.time ∈ s'.map (·.time) := fun s' hs' => by rw [h s' hs']; exact List.mem_map.2 ⟨m, hm, rfl⟩
  cases ss with
  | nil => cases hs
  | cons s0 ss =>
    unfold commonTimes
    rw [List.mem_filter]
    refine ⟨hall _ (by simp), List.all_eq_true.2 fun s' hs' => ?_⟩
    obtain ⟨y, hy, e⟩ := List.mem_map.1 (hall s' (by simp [hs']))
    unfold hasTime
    exact List.any_eq_true.2 ⟨y, hy, by simp [e]⟩

/-- Streams that are images of one list match completely. -/
theorem matched_images {α : Type} (f : V → V → Option V) (k : α → UInt64) (g1 g2 : α → V) (xs : List α) :
    matched f (atTimes (commonTimes [xs.map fun x => ⟨k x, g1 x⟩, xs.map fun x => ⟨k x, g2 x⟩]) (xs.map fun x => ⟨k x, g1 x⟩))
      (atTimes (commonTimes [xs.map fun x => ⟨k x, g1 x⟩, xs.map fun x => ⟨k x, g2 x⟩]) (xs.map fun x => ⟨k x, g2 x⟩)) =
      xs.filterMap fun x => (f (g1 x) (g2 x)).map fun v => ⟨k x, v⟩ := by
  rw [atTimes_self (by simp) (by simp), atTimes_self (by simp) (by simp)]
  unfold matched
  rw [List.zip_map', List.filterMap_map]
  rfl

theorem trail_times (n : Nat) (g g' : List V → V) (ms : List (Msg V)) : (trail n g ms).map (·.time) = (trail n g' ms).map (·.time) := by
  unfold trail
  rw [List.map_filterMap, List.map_filterMap]
  congr 1
  funext w
  cases w.getLast? <;> rfl

theorem matched_trails (f : V → V → Option V) (n : Nat) (g1 g2 g : List V → V) (hg : ∀ w, f (g1 w) (g2 w) = some (g w)) (ms : List (Msg V)) :
    matched f (atTimes (commonTimes [trail n g1 ms, trail n g2 ms]) (trail n g1 ms)) (atTimes (commonTimes [trail n g1 ms, trail n g2 ms]) (trail n g2 ms)) = trail n g ms := by
  have h12 := trail_times n g1 g2 ms
  rw [atTimes_self (by simp) (by simp [h12]), atTimes_self (by simp) (by simp [h12])]
  clear h12
  unfold trail matched
  induction windows n ms with
  | nil => rfl
  | cons w ws ih =>
    simp only [List.filterMap_cons]
    cases w.getLast? with
    | none => exact ih
    | some m => simp [hg, ih]

theorem map_trail (n : Nat) (g : List V → V) (k : V → V) (ms : List (Msg V)) : (trail n g ms).map (fun m => ⟨m.time, k m.value⟩) = trail n (fun w => k (g w)) ms := by
  unfold trail
  rw [List.map_filterMap]
  congr 1
  funext w
  cases w.getLast? <;> rfl

end Rtbot.Trail
