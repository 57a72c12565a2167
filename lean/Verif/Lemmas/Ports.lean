import Verif.Model.Process
import Verif.Lemmas.Map

/-! # Port names and port creation -/

set_option linter.unusedSectionVars false

namespace Rtbot
variable {V : Type} [Num V]

/-- Value of reversed decimal digits. -/
def revVal : Str → Nat
  | [] => 0
  | d :: ds => (d.toNat - 48) + 10 * revVal ds

theorem revVal_decRev (f n : Nat) (h : n < f) : revVal (decRev f n) = n := by
  induction f generalizing n with
  | zero => omega
  | succ f ih =>
    unfold decRev
    split
    · rename_i hn
      simp only [revVal, UInt8.toNat_ofNat']
      omega
    · rename_i hn
      simp only [revVal, UInt8.toNat_ofNat']
      rw [ih _ (by omega)]
      omega

theorem toStr_inj {a b : Nat} (h : toStr a = toStr b) : a = b := by
  unfold toStr at h
  have h' := List.reverse_inj.1 h
  have ha := revVal_decRev (a + 1) a (by omega)
  have hb := revVal_decRev (b + 1) b (by omega)
  rw [h', hb] at ha
  exact ha.symm

theorem iPort_inj {a b : Nat} (h : iPort a = iPort b) : a = b := toStr_inj (List.cons.inj h).2
theorem oPort_inj {a b : Nat} (h : oPort a = oPort b) : a = b := toStr_inj (List.cons.inj h).2
theorem cPort_inj {a b : Nat} (h : cPort a = cPort b) : a = b := toStr_inj (List.cons.inj h).2

theorem iPort_ne_nil (n : Nat) : iPort n ≠ [] := by simp [iPort]
theorem oPort_ne_nil (n : Nat) : oPort n ≠ [] := by simp [oPort]
theorem cPort_ne_nil (n : Nat) : cPort n ≠ [] := by simp [cPort]
theorem iPort_ne_cPort (a b : Nat) : iPort a ≠ cPort b := by simp [iPort, cPort]

/-- `p` is one of the ports named by `f` with number 1..n. -/
def IsPort (f : Nat → Str) (n : Nat) (p : Str) : Prop := ∃ k, 1 ≤ k ∧ k ≤ n ∧ p = f k

theorem isPort_succ (f : Nat → Str) (n : Nat) (p : Str) : IsPort f (n + 1) p ↔ p = f (n + 1) ∨ IsPort f n p := by
  constructor
  · rintro ⟨k, h1, h2, rfl⟩
    by_cases h : k = n + 1
    · left; rw [h]
    · right; exact ⟨k, h1, by omega, rfl⟩
  · rintro (rfl | ⟨k, h1, h2, rfl⟩)
    · exact ⟨n + 1, by omega, by omega, rfl⟩
    · exact ⟨k, h1, by omega, rfl⟩

theorem not_isPort_self {f : Nat → Str} (hf : ∀ a b, f a = f b → a = b) (n : Nat) : ¬ IsPort f n (f (n + 1)) := by
  rintro ⟨k, _, h2, h⟩
  have := hf _ _ h
  omega

/-- Data inputs "i1".."in" on a core. -/
structure HasPorts (c : Core V) (max n : Nat) : Prop where
  sorted : c.dataIn.Sorted
  keys : ∀ p, p ∈ c.dataIn.keys ↔ IsPort iPort n p
  find : ∀ k, 1 ≤ k → k ≤ n → c.dataIn.find? (iPort k) = some (Inp.new (iPort k) max)

theorem HasPorts.length {c : Core V} {max n : Nat} (h : HasPorts c max n) : c.dataIn.length = n := by
  have hnd : (Map.keys c.dataIn).Nodup := List.Pairwise.imp (fun h => strLt_ne h) h.sorted
  have hnd2 : ((List.range n).map fun k => iPort (k + 1)).Nodup := by
    rw [List.nodup_iff_pairwise_ne, List.pairwise_map]
    refine List.Pairwise.imp ?_ List.pairwise_lt_range
    intro a b hab he
    have := iPort_inj he
    omega
  have hperm : (Map.keys c.dataIn).Perm ((List.range n).map fun k => iPort (k + 1)) := by
    rw [List.perm_ext_iff_of_nodup hnd hnd2]
    intro p
    rw [h.keys]
    simp only [List.mem_map, List.mem_range]
    constructor
    · rintro ⟨k, h1, h2, rfl⟩
      exact ⟨k - 1, by omega, by rw [Nat.sub_add_cancel h1]⟩
    · rintro ⟨k, h1, rfl⟩
      exact ⟨k + 1, by omega, by omega, rfl⟩
  have := hperm.length_eq
  simpa [Map.keys] using this

theorem addDataInput_ports {c : Core V} {max n : Nat} (h : HasPorts c max n) (hc : c.ctrlIn = []) :
    ∃ c', c.addDataInput (iPort (n + 1)) max = .ok c' ∧ HasPorts c' max (n + 1) ∧
      c' = { c with dataIn := c'.dataIn } := by
  have hnot : iPort (n + 1) ∉ c.dataIn.keys := by
    rw [h.keys]; exact not_isPort_self (fun _ _ => iPort_inj) n
  have hhas : c.dataIn.has (iPort (n + 1)) = false := by
    rw [Bool.eq_false_iff, ne_eq, Map.has_iff]; exact hnot
  refine ⟨{ c with dataIn := c.dataIn.emplace (iPort (n + 1)) (Inp.new (iPort (n + 1)) max) }, ?_, ⟨h.sorted.emplace _ _, ?_, ?_⟩, rfl⟩
  · unfold Core.addDataInput
    rw [if_neg (iPort_ne_nil _), hhas, hc]
    rfl
  · intro p
    simp only [Map.emplace, hhas, Bool.false_eq_true, if_false]
    rw [Map.mem_keys_put, h.keys, isPort_succ]
  · intro k h1 h2
    simp only [Map.emplace, hhas, Bool.false_eq_true, if_false]
    rw [Map.find?_put]
    split
    · rename_i he; rw [he]
    · rename_i he
      exact h.find k h1 (Nat.le_of_not_lt fun hcon => he (by congr 1; omega))

/-- What `addPorts` builds. -/
theorem addPorts_spec (id : Str) (max n : Nat) :
    ∃ c pm, addPorts (Core.new id : Core V) max n = .ok (c, pm) ∧ HasPorts c max n ∧ c.id = id ∧ c.ctrlIn = [] ∧ c.outputs = [] ∧
      c.toProcess = [] ∧ (∀ q, q ∈ c.outIds ↔ IsPort oPort n q) ∧ pm.Sorted ∧ (∀ p, p ∈ pm.keys ↔ IsPort iPort n p) ∧
      ∀ k, 1 ≤ k → k ≤ n → pm.find? (iPort k) = some (oPort k) := by
  induction n with
  | zero =>
    refine ⟨Core.new id, [], rfl, ⟨Map.Sorted.nil, ?_, ?_⟩, rfl, rfl, rfl, rfl, ?_, Map.Sorted.nil, ?_, ?_⟩
    · intro p
      simp only [Core.new, Map.keys, List.map_nil, List.not_mem_nil, false_iff]
      rintro ⟨k, _, _, _⟩; omega
    · intro k _ _; omega
    · intro q
      simp only [Core.new, List.not_mem_nil, false_iff]
      rintro ⟨k, _, _, _⟩; omega
    · intro p
      simp only [Map.keys, List.map_nil, List.not_mem_nil, false_iff]
      rintro ⟨k, _, _, _⟩; omega
    · intro k _ _; omega
  | succ n ih =>
    obtain ⟨c, pm, h1, h2, h3, h4, h5, h6, h7, h8, h9, h10⟩ := ih
    obtain ⟨c', e1, e2, e3⟩ := addDataInput_ports h2 h4
    have hpn : pm.has (iPort (n + 1)) = false := by
      rw [Bool.eq_false_iff, ne_eq, Map.has_iff, h9]
      exact not_isPort_self (fun _ _ => iPort_inj) n
    refine ⟨c'.addOutput (oPort (n + 1)), pm.emplace (iPort (n + 1)) (oPort (n + 1)), ?_, ⟨e2.sorted, e2.keys, e2.find⟩, ?_, ?_, ?_, ?_, ?_,
      h8.emplace _ _, ?_, ?_⟩
    · rw [addPorts, h1]
      simp only [bind, Except.bind, e1]
    · rw [e3]; exact h3
    · rw [e3]; exact h4
    · rw [e3]; exact h5
    · rw [e3]; exact h6
    · intro q
      simp only [Core.addOutput]
      rw [mem_setInsert, isPort_succ, ← h7, e3]
    · intro p
      simp only [Map.emplace, hpn, Bool.false_eq_true, if_false]
      rw [Map.mem_keys_put, h9, isPort_succ]
    · intro k hk1 hk2
      simp only [Map.emplace, hpn, Bool.false_eq_true, if_false]
      rw [Map.find?_put]
      split
      · rename_i he; rw [iPort_inj he]
      · rename_i he
        exact h10 k hk1 (Nat.le_of_not_lt fun hcon => he (by congr 1; omega))

end Rtbot
