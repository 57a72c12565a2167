import Verif.Lemmas.Connect

set_option linter.unusedSectionVars false

/-! # Reading descriptions -/

namespace Rtbot
variable {V : Type} [Num V]
open Spec

section json
omit [Num V]

theorem sub_ok {j x : Json V} {k : Str} (h : j.sub k = .ok x) : Member j k x := by
  unfold Json.sub at h
  split at h
  · split at h
    · rename_i hm; cases h; exact ⟨_, rfl, hm⟩
    · cases h
  · cases h

theorem at_ok {j x : Json V} {k : Str} (h : j.at' k = .ok x) : Member j k x := by
  unfold Json.at' at h
  split at h
  · split at h
    · rename_i hm; cases h; exact ⟨_, rfl, hm⟩
    · cases h
  · cases h

theorem Spec.Member.at {j x : Json V} {k : Str} (h : Member j k x) : j.at' k = .ok x := by
  obtain ⟨m, rfl, h⟩ := h
  simp [Json.at', h]

theorem Spec.Member.sub {j x : Json V} {k : Str} (h : Member j k x) : j.sub k = .ok x := by
  obtain ⟨m, rfl, h⟩ := h
  simp [Json.sub, h]

theorem Spec.Member.value {α : Type} {j x : Json V} {k : Str} (h : Member j k x) (d : α) (g : Json V → Except Err α) : j.value k d g = g x := by
  obtain ⟨m, rfl, h⟩ := h
  simp [Json.value, h]

theorem Spec.Member.unique {j x y : Json V} {k : Str} (h : Member j k x) (h' : Member j k y) : x = y := by
  have := h.at.symm.trans h'.at
  simpa using this

theorem getStr_ok {j : Json V} {s : Str} (h : j.getStr = .ok s) : j = .str s := by
  unfold Json.getStr at h
  split at h
  · cases h; rfl
  · cases h

theorem mapAt_ok {β : Type} {m : Map β} {k : Str} {x : β} : mapAt m k = .ok x ↔ m.find? k = some x := by
  unfold mapAt
  cases m.find? k with
  | none => exact ⟨fun h => (by cases h), fun h => (by cases h)⟩
  | some y => constructor <;> intro h <;> cases h <;> rfl

theorem mop_ok {m : Mem V} {a : Nat} {o : Op V} : m.op a = .ok o ↔ m.heap a = some o := by
  unfold Mem.op
  cases m.heap a with
  | none => exact ⟨fun h => (by cases h), fun h => (by cases h)⟩
  | some y => constructor <;> intro h <;> cases h <;> rfl

end json

/-! ## Operators -/

theorem addDataInput_id {c c' : Core V} {p : Str} {n : Nat} (h : c.addDataInput p n = .ok c') : c'.id = c.id := by
  unfold Core.addDataInput at h
  split at h
  · cases h
  · split at h
    · cases h
    · cases h; rfl

theorem addControlInput_id {c c' : Core V} {p : Str} {n : Nat} (h : c.addControlInput p n = .ok c') : c'.id = c.id := by
  unfold Core.addControlInput at h
  split at h
  · cases h
  · split at h
    · cases h
    · cases h; rfl

theorem addPorts_id {c c' : Core V} {max : Nat} {pm : Map Str} : ∀ {n : Nat}, addPorts c max n = .ok (c', pm) → c'.id = c.id := by
  intro n
  induction n generalizing c' pm with
  | zero => intro h; cases h; rfl
  | succ n ih =>
    intro h
    obtain ⟨⟨c1, pm1⟩, h1, h2⟩ := bind_eq_ok.1 h
    obtain ⟨c2, h3, h4⟩ := bind_eq_ok.1 h2
    cases h4
    exact (addDataInput_id h3).trans (ih h1)

theorem addControls_id {c c' : Core V} {pm : Map Str} : ∀ {n : Nat}, addControls c n = .ok (c', pm) → c'.id = c.id := by
  intro n
  induction n generalizing c' pm with
  | zero => intro h; cases h; rfl
  | succ n ih =>
    intro h
    obtain ⟨⟨c1, pm1⟩, h1, h2⟩ := bind_eq_ok.1 h
    obtain ⟨c2, h3, h4⟩ := bind_eq_ok.1 h2
    cases h4
    exact (addControlInput_id h3).trans (ih h1)

theorem addInputs_id {c c' : Core V} {max : Nat} : ∀ {n : Nat}, addInputs c max n = .ok c' → c'.id = c.id := by
  intro n
  induction n generalizing c' with
  | zero => intro h; cases h; rfl
  | succ n ih =>
    intro h
    obtain ⟨c1, h1, h2⟩ := bind_eq_ok.1 h
    exact (addDataInput_id h2).trans (ih h1)

theorem newInput_id {id : Str} {n : Nat} {o : Op V} (h : Op.newInput id n = .ok o) : o.core.id = id := by
  obtain ⟨⟨c, pm⟩, h1, h2⟩ := bind_eq_ok.1 h
  cases h2
  exact addPorts_id h1

theorem newOutput_id {id : Str} {n : Nat} {o : Op V} (h : Op.newOutput id n = .ok o) : o.core.id = id := by
  obtain ⟨⟨c, pm⟩, h1, h2⟩ := bind_eq_ok.1 h
  cases h2
  exact addPorts_id h1

theorem newJoin_id {id : Str} {n : Nat} {o : Op V} (h : Op.newJoin id n = .ok o) : o.core.id = id := by
  unfold Op.newJoin at h
  split at h
  · cases h
  · obtain ⟨⟨c, pm⟩, h1, h2⟩ := bind_eq_ok.1 h
    cases h2
    exact addPorts_id h1

theorem newLinear_id {id : Str} {as : List V} {o : Op V} (h : Op.newLinear id as = .ok o) : o.core.id = id := by
  unfold Op.newLinear at h
  split at h
  · cases h
  · obtain ⟨c, h1, h2⟩ := bind_eq_ok.1 h
    cases h2
    exact addInputs_id h1

theorem newDemux_id {id : Str} {n : Nat} {o : Op V} (h : Op.newDemux id n = .ok o) : o.core.id = id := by
  unfold Op.newDemux at h
  split at h
  · cases h
  · obtain ⟨⟨c, pm⟩, h1, h2⟩ := bind_eq_ok.1 h
    obtain ⟨c2, h3, h4⟩ := bind_eq_ok.1 h2
    cases h4
    exact (addDataInput_id h3).trans (addControls_id h1)

theorem newConstRes_id {id : Str} {dt t : UInt64} {v : V} {o : Op V} (h : Op.newConstRes id dt t v = .ok o) : o.core.id = id := by
  unfold Op.newConstRes at h
  split at h
  · cases h
  · cases h; rfl

theorem newFunction_id {id : Str} {ps : List (V × V)} {t : Option Interp} {o : Op V} (h : Op.newFunction id ps t = .ok o) : o.core.id = id := by
  unfold Op.newFunction at h
  split at h
  · cases h
  · split at h
    · cases h
    · cases h; rfl

/-- Read the id first. -/
theorem id_bind {j : Json V} {β : Type} {f : Str → Except Err β} {b : β} (h : (do let x ← j.sub b!"id"; let id ← x.getStr; f id) = .ok b) :
    ∃ id, HasId j id ∧ f id = .ok b := by
  obtain ⟨x, h1, h2⟩ := bind_eq_ok.1 h
  obtain ⟨id, h3, h4⟩ := bind_eq_ok.1 h2
  refine ⟨id, ?_, h4⟩
  unfold HasId
  rw [← getStr_ok h3]
  exact sub_ok h1

theorem valueOpOf_built {t : Str} {new : Str → V → Op V} (h : valueOpOf t = some new) (id : Str) (v : V) : Built (new id v) ∧ (new id v).core.id = id := by
  unfold valueOpOf at h
  repeat' split at h
  all_goals cases h
  · exact ⟨.filter _ _ _, rfl⟩
  · exact ⟨.filter _ _ _, rfl⟩
  · exact ⟨.filter _ _ _, rfl⟩
  · exact ⟨.constant _ _, rfl⟩
  · exact ⟨.add _ _, rfl⟩
  · exact ⟨.scale _ _, rfl⟩
  · exact ⟨.power _ _, rfl⟩

theorem sizeOpOf_built {t : Str} {new : Str → Nat → Op V} (h : sizeOpOf t = some new) (id : Str) (n : Nat) : Built (new id n) ∧ (new id n).core.id = id := by
  unfold sizeOpOf at h
  repeat' split at h
  all_goals cases h
  · exact ⟨.movAvg _ _, rfl⟩
  · exact ⟨.stdDev _ _, rfl⟩
  · exact ⟨.peak _ _, rfl⟩
  · exact ⟨.rsi _ _, rfl⟩

theorem plainOpOf_built {t : Str} {new : Str → Op V} (h : plainOpOf t = some new) (id : Str) : Built (new id) ∧ (new id).core.id = id := by
  unfold plainOpOf at h
  repeat' split at h
  all_goals cases h
  · exact ⟨.cumSum _, rfl⟩
  · exact ⟨.count _, rfl⟩
  · exact ⟨.difference _ _, rfl⟩
  · exact ⟨.identity _, rfl⟩

theorem of_ite {c : Prop} [Decidable c] {α : Type} {a b x : α} (h : (if c then a else b) = x) : c ∧ a = x ∨ ¬ c ∧ b = x := by
  by_cases hc : c
  · exact Or.inl ⟨hc, by rw [if_pos hc] at h; exact h⟩
  · exact Or.inr ⟨hc, by rw [if_neg hc] at h; exact h⟩

theorem otherOpOf_built {t : Str} {j : Json V} {junk : UInt64 × V} {o : Op V} (h : otherOpOf t j junk = some (.ok o)) : Built o ∧ HasId j o.core.id := by
  unfold otherOpOf at h
  rcases of_ite h with ⟨_, h⟩ | ⟨_, h⟩
  · obtain ⟨id, hid, h⟩ := id_bind (Option.some.inj h)
    obtain ⟨n, _, h⟩ := bind_eq_ok.1 h
    obtain ⟨n', _, h⟩ := bind_eq_ok.1 h
    exact ⟨.input h, by rw [newInput_id h]; exact hid⟩
  rcases of_ite h with ⟨_, h⟩ | ⟨_, h⟩
  · obtain ⟨id, hid, h⟩ := id_bind (Option.some.inj h)
    obtain ⟨n, _, h⟩ := bind_eq_ok.1 h
    obtain ⟨n', _, h⟩ := bind_eq_ok.1 h
    exact ⟨.output h, by rw [newOutput_id h]; exact hid⟩
  rcases of_ite h with ⟨_, h⟩ | ⟨_, h⟩
  · obtain ⟨id, hid, h⟩ := id_bind (Option.some.inj h)
    obtain ⟨n, _, h⟩ := bind_eq_ok.1 h
    obtain ⟨n', _, h⟩ := bind_eq_ok.1 h
    exact ⟨.demux h, by rw [newDemux_id h]; exact hid⟩
  rcases of_ite h with ⟨_, h⟩ | ⟨_, h⟩
  · obtain ⟨id, hid, h⟩ := id_bind (Option.some.inj h)
    obtain ⟨x, _, h⟩ := bind_eq_ok.1 h
    obtain ⟨n, _, h⟩ := bind_eq_ok.1 h
    obtain ⟨n', _, h⟩ := bind_eq_ok.1 h
    exact ⟨.join h, by rw [newJoin_id h]; exact hid⟩
  rcases of_ite h with ⟨_, h⟩ | ⟨_, h⟩
  · obtain ⟨id, hid, h⟩ := id_bind (Option.some.inj h)
    obtain ⟨x, _, h⟩ := bind_eq_ok.1 h
    obtain ⟨n, _, h⟩ := bind_eq_ok.1 h
    cases h
    exact ⟨.cosRes _ _, hid⟩
  rcases of_ite h with ⟨_, h⟩ | ⟨_, h⟩
  · obtain ⟨id, hid, h⟩ := id_bind (Option.some.inj h)
    obtain ⟨x, _, h⟩ := bind_eq_ok.1 h
    obtain ⟨n, _, h⟩ := bind_eq_ok.1 h
    cases h
    exact ⟨.hermRes _ _, hid⟩
  rcases of_ite h with ⟨_, h⟩ | ⟨_, h⟩
  · obtain ⟨id, hid, h⟩ := id_bind (Option.some.inj h)
    obtain ⟨x, _, h⟩ := bind_eq_ok.1 h
    obtain ⟨n, _, h⟩ := bind_eq_ok.1 h
    cases h
    exact ⟨.fir _ _, hid⟩
  rcases of_ite h with ⟨_, h⟩ | ⟨_, h⟩
  · obtain ⟨id, hid, h⟩ := id_bind (Option.some.inj h)
    obtain ⟨x, _, h⟩ := bind_eq_ok.1 h
    obtain ⟨n, _, h⟩ := bind_eq_ok.1 h
    exact ⟨.linear h, by rw [newLinear_id h]; exact hid⟩
  rcases of_ite h with ⟨_, h⟩ | ⟨_, h⟩
  · obtain ⟨id, hid, h⟩ := id_bind (Option.some.inj h)
    obtain ⟨x, _, h⟩ := bind_eq_ok.1 h
    obtain ⟨n, _, h⟩ := bind_eq_ok.1 h
    cases h
    exact ⟨.autoReg _ _, hid⟩
  rcases of_ite h with ⟨_, h⟩ | ⟨_, h⟩
  · obtain ⟨id, hid, h⟩ := id_bind (Option.some.inj h)
    obtain ⟨x, _, h⟩ := bind_eq_ok.1 h
    cases h
    exact ⟨.variable _ _, hid⟩
  rcases of_ite h with ⟨_, h⟩ | ⟨_, h⟩
  · obtain ⟨id, hid, h⟩ := id_bind (Option.some.inj h)
    obtain ⟨x, _, h⟩ := bind_eq_ok.1 h
    obtain ⟨n, _, h⟩ := bind_eq_ok.1 h
    cases h
    exact ⟨.timeShift _ _ _, hid⟩
  rcases of_ite h with ⟨_, h⟩ | ⟨_, h⟩
  · obtain ⟨id, hid, h⟩ := id_bind (Option.some.inj h)
    obtain ⟨x, _, h⟩ := bind_eq_ok.1 h
    obtain ⟨n, _, h⟩ := bind_eq_ok.1 h
    exact ⟨.constRes h, by rw [newConstRes_id h]; exact hid⟩
  rcases of_ite h with ⟨_, h⟩ | ⟨_, h⟩
  · obtain ⟨ps, _, h⟩ := bind_eq_ok.1 (Option.some.inj h)
    obtain ⟨points, _, h⟩ := bind_eq_ok.1 h
    obtain ⟨id, hid, h⟩ := id_bind h
    obtain ⟨x, _, h⟩ := bind_eq_ok.1 h
    exact ⟨.function h, by rw [newFunction_id h]; exact hid⟩
  · cases h

theorem simpleOpOf_built {t : Str} {j : Json V} {junk : UInt64 × V} {o : Op V} (h : simpleOpOf t j junk = some (.ok o)) : Built o ∧ HasId j o.core.id := by
  unfold simpleOpOf at h
  split at h
  · obtain ⟨id, hid, h⟩ := id_bind (Option.some.inj h)
    cases h
    exact ⟨.binary _ _, hid⟩
  split at h
  · rename_i hn
    obtain ⟨id, hid, h⟩ := id_bind (Option.some.inj h)
    obtain ⟨x, _, h⟩ := bind_eq_ok.1 h
    obtain ⟨v, _, h⟩ := bind_eq_ok.1 h
    cases h
    obtain ⟨h1, h2⟩ := valueOpOf_built hn id v
    exact ⟨h1, by rw [h2]; exact hid⟩
  split at h
  · rename_i hn
    obtain ⟨id, hid, h⟩ := id_bind (Option.some.inj h)
    obtain ⟨x, _, h⟩ := bind_eq_ok.1 h
    obtain ⟨v, _, h⟩ := bind_eq_ok.1 h
    cases h
    obtain ⟨h1, h2⟩ := sizeOpOf_built hn id v.toNat
    exact ⟨h1, by rw [h2]; exact hid⟩
  split at h
  · rename_i hn
    obtain ⟨id, hid, h⟩ := id_bind (Option.some.inj h)
    cases h
    obtain ⟨h1, h2⟩ := plainOpOf_built hn id
    exact ⟨h1, by rw [h2]; exact hid⟩
  · exact otherOpOf_built h

/-- What `readOp` returns for a type other than Pipeline. -/
theorem readOp_simple {junk : Junk V} {fuel : Nat} {j : Json V} {m m' : Mem V} {o : Op V} (h : readOp junk fuel j m = .ok (o, m'))
    (hp : ¬ HasType j b!"Pipeline") : ∃ t, HasType j t ∧ simpleOpOf t j (junk m.next) = some (.ok o) ∧ m' = m := by
  cases fuel with
  | zero => cases h
  | succ fuel =>
    unfold readOp at h
    obtain ⟨x, h1, h2⟩ := bind_eq_ok.1 h
    obtain ⟨t, h3, h4⟩ := bind_eq_ok.1 h2
    have ht : HasType j t := by
      unfold HasType
      rw [← getStr_ok h3]
      exact at_ok h1
    split at h4
    · rename_i he
      rw [he] at ht
      exact absurd ht hp
    · split at h4
      · cases h4
      · rename_i r hr
        obtain ⟨o', h5, h6⟩ := bind_eq_ok.1 h4
        cases h6
        exact ⟨t, ht, by rw [hr, h5], rfl⟩

/-! ## The table of operators -/

/-- The state of the construction. -/
structure Making (ops : Map Nat) (m : Mem V) : Prop where
  indexed : Indexed ops m.heap
  sorted : ops.Sorted
  free : ∀ a, m.next ≤ a → m.heap a = none
  built : ∀ a o, m.heap a = some o → Connected o
  conns : ConnsOK m.heap

theorem making_start : Making ([] : Map Nat) (⟨fun _ => none, 0⟩ : Mem V) :=
  ⟨⟨fun _ _ h => (by cases h), fun _ _ h => (by cases h)⟩, Map.Sorted.nil, fun _ _ => rfl, fun _ _ h => (by cases h), fun _ _ h => (by cases h)⟩

theorem Spec.Built.noOutputs {o : Op V} (h : Built o) : o.core.outputs = [] := h.new.core.alone

theorem Making.add {ops : Map Nat} {m : Mem V} (h : Making ops m) {o : Op V} (ho : Built o) (hi : ops.has o.core.id = false) :
    Making (ops.put o.core.id m.next) (m.alloc o) := by
  have hnone : ops.find? o.core.id = none := by
    unfold Map.has at hi
    cases hf : ops.find? o.core.id with
    | none => rfl
    | some x => rw [hf] at hi; cases hi
  have hfree : m.heap m.next = none := h.free _ (Nat.le_refl _)
  have hold : ∀ a o', m.heap a = some o' → (m.alloc o).heap a = some o' := by
    intro a o' ha
    have : a ≠ m.next := fun he => by rw [he, hfree] at ha; cases ha
    simp [Mem.alloc, this, ha]
  refine ⟨⟨?_, ?_⟩, h.sorted.put _ _, ?_, ?_, ?_⟩
  · intro id a hf
    by_cases he : o.core.id = id
    · rw [← he, Map.find?_put_self] at hf
      cases hf
      exact ⟨o, by simp [Mem.alloc], he⟩
    · rw [Map.find?_put_ne _ _ (fun hh => he hh.symm)] at hf
      obtain ⟨o', h1, h2⟩ := h.indexed.listed id a hf
      exact ⟨o', hold _ _ h1, h2⟩
  · intro a o' ha
    simp only [Mem.alloc] at ha
    split at ha
    · rename_i he
      cases ha
      rw [he, Map.find?_put_self]
    · have h1 := h.indexed.all a o' ha
      have : o.core.id ≠ o'.core.id := fun hh => by rw [hh, h1] at hnone; cases hnone
      rw [Map.find?_put_ne _ _ (fun hh => this hh.symm)]
      exact h1
  · intro a ha
    simp only [Mem.alloc] at ha ⊢
    rw [if_neg (by omega)]
    exact h.free a (by omega)
  · intro a o' ha
    simp only [Mem.alloc] at ha
    split at ha
    · cases ha
      exact ⟨o, o.core.outputs, ho, rfl⟩
    · exact h.built a o' ha
  · intro a o' ha p cs hm
    simp only [Mem.alloc] at ha
    split at ha
    · cases ha
      rw [ho.noOutputs] at hm
      cases hm
    · obtain ⟨h1, h2⟩ := h.conns a o' ha p cs hm
      exact ⟨h1, fun c hc => by
        obtain ⟨t, h3, h4⟩ := h2 c hc
        exact ⟨t, hold _ _ h3, h4⟩⟩

theorem buildOps_making {junk : Junk V} {fuel : Nat} (xs : List (Json V)) (hp : ∀ x ∈ xs, ¬ HasType x b!"Pipeline") :
    ∀ {ops ops' : Map Nat} {m m' : Mem V}, Making ops m → buildOps (readOp junk fuel) xs ops m = .ok (ops', m') → Making ops' m' := by
  induction xs with
  | nil => intro ops ops' m m' h hb; cases hb; exact h
  | cons x xs ih =>
    intro ops ops' m m' h hb
    unfold buildOps at hb
    obtain ⟨idj, h1, hb⟩ := bind_eq_ok.1 hb
    obtain ⟨⟨o, m1⟩, h2, hb⟩ := bind_eq_ok.1 hb
    obtain ⟨id, h3, hb⟩ := bind_eq_ok.1 hb
    obtain ⟨t, _, h4, rfl⟩ := readOp_simple h2 (hp x (by simp))
    obtain ⟨hbuilt, hid⟩ := simpleOpOf_built h4
    have : id = o.core.id := by
      have := (sub_ok h1).unique hid
      rw [getStr_ok h3] at this
      cases this
      rfl
    subst this
    have ih' := fun {ops ops' m m'} => @ih (fun y hy => hp y (List.mem_cons_of_mem _ hy)) ops ops' m m'
    split at hb
    · exact ih' h hb
    · rename_i hh
      exact ih' (h.add hbuilt (by simpa using hh)) hb

/-! ## Connections -/

/-- A successful connection changes the connections of one operator. -/
theorem makeConn_ok {ops : Map Nat} {x : ConnDesc} {m m' : Mem V} (hs : ∀ a o, m.heap a = some o → Simple o) (h : makeConn ops x m = .ok m') :
    ∃ a b o t c, ops.find? x.from' = some a ∧ ops.find? x.to = some b ∧ m.heap a = some o ∧ m.heap b = some t ∧
      o.core.connect t.core b x.fromPort x.toPort = .ok (some c) ∧
      m' = { m with heap := fun y => if y = a then some { o with core := c } else m.heap y } := by
  unfold makeConn at h
  obtain ⟨a, h1, h⟩ := bind_eq_ok.1 h
  obtain ⟨b, h2, h⟩ := bind_eq_ok.1 h
  have h1 := mapAt_ok.1 h1
  have h2 := mapAt_ok.1 h2
  unfold connectOp at h
  simp only [bind, M.bind, getOp, Mem.st] at h
  cases ha : m.heap a with
  | none => rw [ha] at h; cases h
  | some o =>
    rw [ha] at h
    dsimp only at h
    cases hb : m.heap b with
    | none => rw [hb] at h; cases h
    | some t =>
      rw [hb] at h
      dsimp only at h
      have hk := hs a o ha
      unfold Simple at hk
      have key : (match localRun a (Op.connect t.core b x.fromPort x.toPort) ⟨m.heap, 0, []⟩ with
          | .err e _ => .error e
          | .ok true s => .ok { m with heap := s.heap }
          | .ok false _ => throwExc .runtime : Except Err (Mem V)) = .ok m' := by
        cases hkind : o.kind <;> rw [hkind] at h hk <;> first | exact h | exact hk.elim
      unfold localRun at key
      dsimp only at key
      rw [ha] at key
      dsimp only [Op.connect] at key
      cases hc : o.core.connect t.core b x.fromPort x.toPort with
      | error e => rw [hc] at key; cases key
      | ok r =>
        rw [hc] at key
        cases r with
        | none => cases key
        | some c =>
          cases key
          exact ⟨a, b, o, t, c, h1, h2, ha, hb, hc, rfl⟩

theorem Spec.Connected.simple {o : Op V} (h : Connected o) : Simple o := h.parts.1

theorem makeConn_making {ops : Map Nat} {x : ConnDesc} {m m' : Mem V} (hm : Making ops m) (h : makeConn ops x m = .ok m') : Making ops m' := by
  have hs : ∀ a o, m.heap a = some o → Simple o := fun a o ho => (hm.built a o ho).simple
  have hconn : ConnsOK m'.heap := by
    unfold makeConn at h
    obtain ⟨a, h1, h⟩ := bind_eq_ok.1 h
    obtain ⟨b, h2, h⟩ := bind_eq_ok.1 h
    have := connectOp_conns (s := m.st) hm.conns a b x.fromPort x.toPort
    cases hr : connectOp a b x.fromPort x.toPort m.st with
    | err e s => rw [hr] at h; cases h
    | ok r s =>
      rw [hr] at h this
      cases r with
      | false => cases h
      | true => cases h; exact this
  obtain ⟨a, b, o, t, c, h1, h2, ha, hb, hc, rfl⟩ := makeConn_ok hs h
  obtain ⟨p, q, cs, _, _, _, _, hc', _⟩ := connect_spec hc
  have hid : c.id = o.core.id := by rw [hc']
  refine ⟨⟨?_, ?_⟩, hm.sorted, ?_, ?_, hconn⟩
  · intro id x' hf
    obtain ⟨o', h3, h4⟩ := hm.indexed.listed id x' hf
    dsimp only
    split
    · rename_i he
      rw [he, ha] at h3
      cases h3
      exact ⟨_, rfl, hid.trans h4⟩
    · exact ⟨o', h3, h4⟩
  · intro x' o' hx
    dsimp only at hx
    split at hx
    · rename_i he
      cases hx
      rw [he]
      dsimp only
      rw [hid]
      exact hm.indexed.all a o ha
    · exact hm.indexed.all x' o' hx
  · intro x' hx
    have h3 := hm.free x' hx
    dsimp only
    split
    · rename_i he
      rw [he, ha] at h3
      cases h3
    · exact h3
  · intro x' o' hx
    dsimp only at hx
    split at hx
    · cases hx
      obtain ⟨o0, outs, hb0, he⟩ := hm.built a o ha
      exact ⟨o0, c.outputs, hb0, by rw [hc', he]⟩
    · exact hm.built x' o' hx

theorem makeConns_making {ops : Map Nat} (js : List (Json V)) : ∀ {m m' : Mem V}, Making ops m → makeConns ops js m = .ok m' → Making ops m' := by
  induction js with
  | nil => intro m m' hm h; cases h; exact hm
  | cons j js ih =>
    intro m m' hm h
    obtain ⟨x, _, h⟩ := bind_eq_ok.1 h
    obtain ⟨m1, h1, h⟩ := bind_eq_ok.1 h
    exact ih (makeConn_making hm h1) h

/-! ## Programs -/

/-- What a successful creation went through. -/
theorem initWith_ok {junk : Junk V} {json : Str} {j : Json V} {P : Prog V} (h : Prog.initWith junk json j = .ok P) :
    ∃ entry os ops m cs m' a o, j.value b!"entryOperator" [] Json.getStr = .ok entry ∧ entry ≠ [] ∧ Member j b!"operators" os ∧
      buildOps (readOp junk (j.depth + 1)) os.items [] ⟨fun _ => none, 0⟩ = .ok (ops, m) ∧ Member j b!"connections" cs ∧
      makeConns ops cs.items m = .ok m' ∧ ops.find? entry = some a ∧ m'.heap a = some o ∧
      (o.core.ctrlIn = [] ∧ P = { json := json, ops := ops, entry := entry, filter := readFilter j, st := m'.st } ∨
        o.core.ctrlIn ≠ [] ∧ P = Prog.empty json) := by
  unfold Prog.initWith at h
  obtain ⟨entry, h1, h⟩ := bind_eq_ok.1 h
  split at h
  · cases h
  · rename_i hne
    obtain ⟨os, h2, h⟩ := bind_eq_ok.1 h
    obtain ⟨⟨ops, m⟩, h3, h⟩ := bind_eq_ok.1 h
    obtain ⟨cs, h4, h⟩ := bind_eq_ok.1 h
    obtain ⟨m', h5, h⟩ := bind_eq_ok.1 h
    split at h
    · cases h
    · rename_i a ha
      obtain ⟨o, h6, h⟩ := bind_eq_ok.1 h
      refine ⟨entry, os, ops, m, cs, m', a, o, h1, hne, at_ok h2, h3, at_ok h4, h5, ha, mop_ok.1 h6, ?_⟩
      split at h
      · rename_i hc
        cases h
        exact Or.inl ⟨by simpa using hc, rfl⟩
      · rename_i hc
        cases h
        exact Or.inr ⟨by simpa using hc, rfl⟩

/-- A created program without pipelines. -/
theorem initWith_flat {junk : Junk V} {json : Str} {j : Json V} {P : Prog V} (hf : Flat j) (h : Prog.initWith junk json j = .ok P) :
    P = Prog.empty json ∨ ∃ m, Making P.ops m ∧ P.st = m.st := by
  obtain ⟨entry, os, ops, m, cs, m', a, o, _, _, hos, hb, _, hc, _, _, h | h⟩ := initWith_ok h
  · obtain ⟨_, rfl⟩ := h
    exact Or.inr ⟨m', makeConns_making _ (buildOps_making _ (fun x hx => hf os hos x hx) making_start hb |> fun h => h) hc, rfl⟩
  · exact Or.inl h.2

/-! ## Where operators come from -/

/-- The operator is what the first description with its id gives, apart from connections. -/
def FirstOf (xs : List (Json V)) (o : Op V) : Prop :=
  ∃ pre x post t junk o0, xs = pre ++ x :: post ∧ HasId x o.core.id ∧ (∀ y ∈ pre, ¬ HasId y o.core.id) ∧ HasType x t ∧
    simpleOpOf t x junk = some (.ok o0) ∧ o = { o0 with core := { o0.core with outputs := o.core.outputs } }

theorem FirstOf.more {xs : List (Json V)} {o : Op V} (h : FirstOf xs o) (y : Json V) : FirstOf (xs ++ [y]) o := by
  obtain ⟨pre, x, post, t, junk, o0, rfl, h⟩ := h
  exact ⟨pre, x, post ++ [y], t, junk, o0, by simp, h⟩

theorem FirstOf.rewire {xs : List (Json V)} {o : Op V} (h : FirstOf xs o) (outs : Map (List Conn)) :
    FirstOf xs { o with core := { o.core with outputs := outs } } := by
  obtain ⟨pre, x, post, t, junk, o0, h1, h2, h3, h4, h5, h6⟩ := h
  refine ⟨pre, x, post, t, junk, o0, h1, h2, h3, h4, h5, ?_⟩
  rw [h6]

theorem buildOps_first {junk : Junk V} {fuel : Nat} (xs : List (Json V)) (hp : ∀ x ∈ xs, ¬ HasType x b!"Pipeline") :
    ∀ {seen : List (Json V)} {ops ops' : Map Nat} {m m' : Mem V}, (∀ a o, m.heap a = some o → FirstOf seen o) →
      (∀ x ∈ seen, ∀ id, HasId x id → ops.has id = true) → buildOps (readOp junk fuel) xs ops m = .ok (ops', m') →
      (∀ a o, m'.heap a = some o → FirstOf (seen ++ xs) o) ∧ ∀ x ∈ seen ++ xs, ∀ id, HasId x id → ops'.has id = true := by
  induction xs with
  | nil => intro seen ops ops' m m' h h' hb; cases hb; rw [List.append_nil]; exact ⟨h, h'⟩
  | cons x xs ih =>
    intro seen ops ops' m m' h h' hb
    unfold buildOps at hb
    obtain ⟨idj, h1, hb⟩ := bind_eq_ok.1 hb
    obtain ⟨⟨o, m1⟩, h2, hb⟩ := bind_eq_ok.1 hb
    obtain ⟨id, h3, hb⟩ := bind_eq_ok.1 hb
    obtain ⟨t, ht, h4, rfl⟩ := readOp_simple h2 (hp x (by simp))
    obtain ⟨hbuilt, hid⟩ := simpleOpOf_built h4
    have hxid : ∀ id', HasId x id' → id' = id := by
      intro id' hx
      have := (sub_ok h1).unique hx
      rw [getStr_ok h3] at this
      cases this
      rfl
    have : id = o.core.id := (hxid _ hid).symm
    subst this
    rw [show seen ++ x :: xs = (seen ++ [x]) ++ xs by simp]
    have ih' := @ih (fun y hy => hp y (List.mem_cons_of_mem _ hy)) (seen ++ [x])
    split at hb
    · rename_i hh
      refine ih' (fun a o' ho => (h a o' ho).more x) ?_ hb
      intro y hy id' hid'
      rcases List.mem_append.1 hy with hy | hy
      · exact h' y hy id' hid'
      · rw [List.mem_singleton.1 hy] at hid'
        rw [hxid id' hid']
        exact hh
    · rename_i hh
      refine ih' ?_ ?_ hb
      · intro a o' ho
        simp only [Mem.alloc] at ho
        split at ho
        · cases ho
          exact ⟨seen, x, [], t, _, o, by simp, hid, fun y hy hc => hh (h' y hy _ hc), ht, h4, rfl⟩
        · exact (h a o' ho).more x
      · intro y hy id' hid'
        rw [Map.has_iff, Map.mem_keys_put]
        rcases List.mem_append.1 hy with hy | hy
        · exact Or.inr ((Map.has_iff _ _).1 (h' y hy id' hid'))
        · rw [List.mem_singleton.1 hy] at hid'
          exact Or.inl (hxid id' hid')

theorem makeConns_first {ops : Map Nat} {xs : List (Json V)} (js : List (Json V)) : ∀ {m m' : Mem V}, Making ops m →
    (∀ a o, m.heap a = some o → FirstOf xs o) → makeConns ops js m = .ok m' → ∀ a o, m'.heap a = some o → FirstOf xs o := by
  induction js with
  | nil => intro m m' hm hf h; cases h; exact hf
  | cons j js ih =>
    intro m m' hm hf h
    obtain ⟨x, _, h⟩ := bind_eq_ok.1 h
    obtain ⟨m1, h1, h⟩ := bind_eq_ok.1 h
    refine ih (makeConn_making hm h1) ?_ h
    obtain ⟨a, b, o, t, c, _, _, ha, hb, hc, rfl⟩ := makeConn_ok (fun a o ho => (hm.built a o ho).simple) h1
    obtain ⟨p, q, cs, _, _, _, _, hc', _⟩ := connect_spec hc
    intro y o' ho
    dsimp only at ho
    split at ho
    · cases ho
      rw [hc']
      exact (hf a o ha).rewire _
    · exact hf y o' ho

theorem initWith_first {junk : Junk V} {json : Str} {j : Json V} {P : Prog V} (hf : Flat j) (h : Prog.initWith junk json j = .ok P) :
    P = Prog.empty json ∨ ∃ os, Member j b!"operators" os ∧ (∀ a o, P.st.heap a = some o → FirstOf os.items o) ∧
      ∀ x ∈ os.items, ∀ id, HasId x id → P.ops.has id = true := by
  obtain ⟨entry, os, ops, m, cs, m', a, o, _, _, hos, hb, _, hc, _, _, h | h⟩ := initWith_ok h
  · obtain ⟨_, rfl⟩ := h
    obtain ⟨h1, h2⟩ := buildOps_first os.items (fun x hx => hf os hos x hx) (seen := []) (fun _ _ h => (by cases h)) (fun _ h => (by cases h)) hb
    exact Or.inr ⟨os, hos, makeConns_first _ (buildOps_making _ (fun x hx => hf os hos x hx) making_start hb) h1 hc, h2⟩
  · exact Or.inl h.2

/-- The ids in the table are ids of descriptions. -/
theorem buildOps_ids {read : Json V → Mem V → Except Err (Op V × Mem V)} (xs : List (Json V)) :
    ∀ {ops ops' : Map Nat} {m m' : Mem V}, buildOps read xs ops m = .ok (ops', m') → ∀ id, ops'.has id = true → ops.has id = true ∨ ∃ x ∈ xs, HasId x id := by
  induction xs with
  | nil => intro ops ops' m m' hb id h; cases hb; exact Or.inl h
  | cons x xs ih =>
    intro ops ops' m m' hb id' h
    unfold buildOps at hb
    obtain ⟨idj, h1, hb⟩ := bind_eq_ok.1 hb
    obtain ⟨⟨o, m1⟩, h2, hb⟩ := bind_eq_ok.1 hb
    obtain ⟨id, h3, hb⟩ := bind_eq_ok.1 hb
    have hid : HasId x id := by
      unfold HasId
      rw [← getStr_ok h3]
      exact sub_ok h1
    split at hb
    · rcases ih hb id' h with h | ⟨y, hy, h⟩
      · exact Or.inl h
      · exact Or.inr ⟨y, List.mem_cons_of_mem _ hy, h⟩
    · rcases ih hb id' h with h | ⟨y, hy, h⟩
      · rw [Map.has_iff, Map.mem_keys_put] at h
        rcases h with rfl | h
        · exact Or.inr ⟨x, by simp, hid⟩
        · exact Or.inl ((Map.has_iff _ _).2 h)
      · exact Or.inr ⟨y, List.mem_cons_of_mem _ hy, h⟩

end Rtbot
