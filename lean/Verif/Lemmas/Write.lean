import Verif.Lemmas.Describe
import Verif.Lemmas.Ports
import Verif.Lemmas.DemuxRun
import Verif.Lemmas.Codec

set_option linter.unusedSectionVars false

/-! # Writing and reading back -/

namespace Rtbot
variable {V : Type} [Num V]
open Spec

section
omit [Num V]

theorem described_type (t id : Str) (rest : List (Str × Json V)) : HasType (Json.described t id rest) t := by
  refine ⟨_, rfl, ?_⟩
  have : ∀ (rest : List (Str × Json V)) (m : Map (Json V)) k x, Map.find? m k = some x → Map.find? (rest.foldl (fun m e => Map.emplace m e.1 e.2) m) k = some x := by
    intro rest
    induction rest with
    | nil => intro m k x h; exact h
    | cons e rest ih =>
      intro m k x h
      refine ih _ _ _ ?_
      rw [Map.find?_emplace, h]
      split <;> simp_all
  exact this _ _ _ _ rfl

theorem described_id (t id : Str) (rest : List (Str × Json V)) : HasId (Json.described t id rest) id := by
  refine ⟨_, rfl, ?_⟩
  have : ∀ (rest : List (Str × Json V)) (m : Map (Json V)) k x, Map.find? m k = some x → Map.find? (rest.foldl (fun m e => Map.emplace m e.1 e.2) m) k = some x := by
    intro rest
    induction rest with
    | nil => intro m k x h; exact h
    | cons e rest ih =>
      intro m k x h
      refine ih _ _ _ ?_
      rw [Map.find?_emplace, h]
      split <;> simp_all
  exact this _ _ _ _ rfl

end

theorem denotes_ofNum {v : V} (h : Num.eq (v -. v) (v -. v) = true) : Denotes (Json.ofNum v) v := by
  unfold Json.ofNum finite
  rw [if_pos h]
  exact .float v

theorem denotes_ofNums {vs : List V} (h : ∀ v ∈ vs, Num.eq (v -. v) (v -. v) = true) : List.Forall₂ Denotes (vs.map Json.ofNum) vs := by
  induction vs with
  | nil => exact .nil
  | cons v vs ih => exact .cons (denotes_ofNum (h v (by simp))) (ih fun w hw => h w (List.mem_cons_of_mem _ hw))

theorem newInput_length {id : Str} {n : Nat} {o : Op V} (h : Op.newInput id n = .ok o) : o.core.dataIn.length = n := by
  obtain ⟨c, pm, h1, h2, _⟩ := addPorts_spec (V := V) id 1 n
  unfold Op.newInput at h
  rw [h1] at h
  cases h
  exact h2.length

theorem newOutput_length {id : Str} {n : Nat} {o : Op V} (h : Op.newOutput id n = .ok o) : o.core.dataIn.length = n := by
  obtain ⟨c, pm, h1, h2, _⟩ := addPorts_spec (V := V) id 1 n
  unfold Op.newOutput at h
  rw [h1] at h
  cases h
  exact h2.length

theorem newJoin_length {id : Str} {n : Nat} {o : Op V} (h : Op.newJoin id n = .ok o) : o.core.dataIn.length = n := by
  obtain ⟨c, pm, h1, h2, _⟩ := addPorts_spec (V := V) id 0 n
  unfold Op.newJoin at h
  split at h
  · cases h
  · rw [h1] at h
    cases h
    exact h2.length

theorem length_setInsert {s : List Str} {k : Str} (h : k ∉ s) : (setInsert s k).length = s.length + 1 := by
  induction s with
  | nil => rfl
  | cons a s ih =>
    simp only [List.mem_cons, not_or] at h
    unfold setInsert
    rw [if_neg (fun hh => h.1 hh.symm)]
    split
    · rfl
    · simp [ih h.2]

theorem addControls_length {id : Str} : ∀ {n : Nat} {c : Core V} {pm}, addControls (Core.new id : Core V) n = .ok (c, pm) →
    c.outIds.length = n ∧ ∀ q, q ∈ c.outIds ↔ IsPort oPort n q := by
  intro n
  induction n with
  | zero =>
    intro c pm h
    cases h
    refine ⟨rfl, fun q => ?_⟩
    simp only [Core.new, List.not_mem_nil, false_iff]
    rintro ⟨k, _, _, _⟩; omega
  | succ n ih =>
    intro c pm h
    obtain ⟨⟨c1, pm1⟩, h1, h⟩ := bind_eq_ok.1 h
    obtain ⟨c2, h2, h⟩ := bind_eq_ok.1 h
    obtain ⟨e1, e2⟩ := ih h1
    have h3 : c2.outIds = c1.outIds := by
      unfold Core.addControlInput at h2
      split at h2
      · cases h2
      · split at h2
        · cases h2
        · cases h2; rfl
    cases h
    have hnot : oPort (n + 1) ∉ c1.outIds := by
      rw [e2]; exact not_isPort_self (fun _ _ => oPort_inj) n
    unfold Core.addOutput
    dsimp only
    rw [h3]
    refine ⟨by rw [length_setInsert hnot, e1], fun q => ?_⟩
    rw [mem_setInsert, isPort_succ, e2]

theorem newDemux_length {id : Str} {n : Nat} {o : Op V} (h : Op.newDemux id n = .ok o) : o.core.outIds.length = n := by
  unfold Op.newDemux at h
  split at h
  · cases h
  · obtain ⟨⟨c, pm⟩, h1, h⟩ := bind_eq_ok.1 h
    obtain ⟨c2, h2, h⟩ := bind_eq_ok.1 h
    cases h
    have h3 : c2.outIds = c.outIds := by
      unfold Core.addDataInput at h2
      split at h2
      · cases h2
      · split at h2
        · cases h2
        · cases h2; rfl
    show c2.outIds.length = n
    rw [h3]
    exact (addControls_length h1).1

theorem ofSize_toNat {n : Nat} (h : n < 2 ^ 64) : (UInt64.ofNat n).toNat = n := by
  rw [UInt64.toNat_ofNat_of_lt']
  unfold UInt64.size
  omega

theorem sameParams_refl (o : Op V) : SameParams o o := ⟨rfl, .inl rfl⟩

theorem bind_of_ok {α β : Type} {x : Except Err α} {a : α} (h : x = .ok a) (f : α → Except Err β) : (x >>= f) = f a := by
  rw [h]
  rfl

theorem dataMax_fresh (c : Core V) : c.fresh.dataMax = c.dataMax := by
  obtain ⟨id, dataIn, ctrlIn, outIds, outputs, toProcess⟩ := c
  unfold Core.fresh Core.dataMax
  dsimp only
  match dataIn with
  | [] => rfl
  | [(p, i)] => rfl
  | e1 :: e2 :: rest =>
    have h1 : (freshMap (e1 :: e2 :: rest)).find? [] = (Map.find? (e1 :: e2 :: rest) []).map Inp.fresh := find?_freshMap _ _
    have h2 : freshMap (e1 :: e2 :: rest) = (e1.1, e1.2.fresh) :: (e2.1, e2.2.fresh) :: freshMap rest := rfl
    rw [h2] at h1 ⊢
    dsimp only
    rw [h1]
    cases Map.find? (e1 :: e2 :: rest) [] <;> rfl

/-- Only parameters are written. -/
theorem write_fresh (o : Op V) : o.fresh.write = o.write := by
  obtain ⟨c, k⟩ := o
  have h1 : (freshMap c.dataIn).length = c.dataIn.length := by simp [freshMap]
  unfold Op.fresh Op.write
  cases k <;> dsimp only [Kind.fresh] <;> first
    | rfl
    | (rw [dataMax_fresh]; rfl)
    | (unfold Core.fresh; dsimp only; rw [h1])

/-- The size 0 is written as the largest number, which reads back as the same buffer. -/
theorem simple_max (id : Str) (n : Nat) : (Core.simple id (Inp.new i1 n : Inp V).max : Core V) = Core.simple id n := by
  unfold Core.simple Inp.new
  by_cases h : n = 0
  · subst h
    rfl
  · simp only [if_neg h]

/-- A new operator, written and read back. -/
theorem write_read {o : Op V} (hb : Built o) (hw : Writable o) (junk : UInt64 × V) :
    ∃ j o' t, o.write = .ok j ∧ SameParams o o' ∧ HasType j t ∧ t ≠ b!"Pipeline" ∧ simpleOpOf t j junk = some (.ok o') := by
  have fin : ∀ {j : Json V}, o.write = .ok j → Describes junk j o →
      ∃ j o' t, o.write = .ok j ∧ SameParams o o' ∧ HasType j t ∧ t ≠ b!"Pipeline" ∧ simpleOpOf t j junk = some (.ok o') := by
    intro j h1 h2
    obtain ⟨t, h3, h4, h5⟩ := simpleOpOf_of_describes h2
    exact ⟨j, o, t, h1, sameParams_refl o, h3, h4, h5⟩
  cases hb with
  | input h =>
    rename_i id n
    have hl := newInput_length h
    have hid := newInput_id h
    obtain ⟨⟨c, pm⟩, h1, h2⟩ := bind_eq_ok.1 (show (addPorts (Core.new id : Core V) 1 n >>= fun x => .ok ⟨x.1, .input x.2 []⟩) = .ok o from h)
    cases h2
    unfold Writable at hw
    dsimp only at hw hl hid
    have hsz := ofSize_toNat (n := c.dataIn.length) (Nat.lt_trans hw (by decide))
    refine fin rfl (.input (described_type _ _ _) (described_id _ _ _) (.inl ⟨_, rfl, rfl⟩) ?_ ?_)
    · show (UInt64.ofNat c.dataIn.length).toNat < _; rw [hsz]; exact hw
    · show Op.newInput c.id (UInt64.ofNat c.dataIn.length).toNat = _; rw [hsz, hid, hl]; exact h
  | output h =>
    rename_i id n
    have hl := newOutput_length h
    have hid := newOutput_id h
    obtain ⟨⟨c, pm⟩, h1, h2⟩ := bind_eq_ok.1 (show (addPorts (Core.new id : Core V) 1 n >>= fun x => .ok ⟨x.1, .output x.2⟩) = .ok o from h)
    cases h2
    unfold Writable at hw
    dsimp only at hw hl hid
    have hsz := ofSize_toNat (n := c.dataIn.length) (Nat.lt_trans hw (by decide))
    refine fin rfl (.output (described_type _ _ _) (described_id _ _ _) (.inl ⟨_, rfl, rfl⟩) ?_ ?_)
    · show (UInt64.ofNat c.dataIn.length).toNat < _; rw [hsz]; exact hw
    · show Op.newOutput c.id (UInt64.ofNat c.dataIn.length).toNat = _; rw [hsz, hid, hl]; exact h
  | join h =>
    rename_i id n
    have hl := newJoin_length h
    have hid := newJoin_id h
    have h' := h
    unfold Op.newJoin at h'
    split at h'
    · cases h'
    · obtain ⟨⟨c, pm⟩, h1, h2⟩ := bind_eq_ok.1 h'
      cases h2
      unfold Writable at hw
      dsimp only at hw hl hid
      have hsz := ofSize_toNat (n := c.dataIn.length) (Nat.lt_trans hw (by decide))
      refine fin rfl (.join (described_type _ _ _) (described_id _ _ _) ⟨_, rfl, rfl⟩ ?_ ?_)
      · show (UInt64.ofNat c.dataIn.length).toNat < _; rw [hsz]; exact hw
      · show Op.newJoin c.id (UInt64.ofNat c.dataIn.length).toNat = _; rw [hsz, hid, hl]; exact h
  | demux h =>
    rename_i id n
    have hl := newDemux_length h
    have hid := newDemux_id h
    have h' := h
    unfold Op.newDemux at h'
    split at h'
    · cases h'
    · obtain ⟨⟨c, pm⟩, h1, h2⟩ := bind_eq_ok.1 h'
      obtain ⟨c2, h3, h4⟩ := bind_eq_ok.1 h2
      cases h4
      unfold Writable at hw
      dsimp only at hw hl hid
      have hsz := ofSize_toNat (n := c2.outIds.length) (Nat.lt_trans hw (by decide))
      refine fin rfl (.demux (described_type _ _ _) (described_id _ _ _) (.inl ⟨_, rfl, rfl⟩) ?_ ?_)
      · show (UInt64.ofNat c2.outIds.length).toNat < _; rw [hsz]; exact hw
      · show Op.newDemux c2.id (UInt64.ofNat c2.outIds.length).toNat = _; rw [hsz, hid, hl]; exact h
  | linear h =>
    rename_i id coeff
    have hid := newLinear_id h
    have h' := h
    unfold Op.newLinear at h'
    split at h'
    · cases h'
    · obtain ⟨c, h1, h2⟩ := bind_eq_ok.1 h'
      cases h2
      refine fin rfl (.linear (described_type _ _ _) (described_id _ _ _) ⟨_, rfl, rfl⟩ (denotes_ofNums hw) ?_)
      rw [hid]; exact h
  | binary id op => exact fin rfl (.binary (described_type _ _ _) (described_id _ _ _) (by cases op <;> decide))
  | filter id f v => exact fin rfl (.filter (described_type _ _ _) (described_id _ _ _) (by cases f <;> decide) ⟨_, rfl, rfl⟩ (denotes_ofNum hw))
  | add id v => exact fin rfl (.add (described_type _ _ _) (described_id _ _ _) ⟨_, rfl, rfl⟩ (denotes_ofNum hw))
  | scale id v => exact fin rfl (.scale (described_type _ _ _) (described_id _ _ _) ⟨_, rfl, rfl⟩ (denotes_ofNum hw))
  | power id v => exact fin rfl (.power (described_type _ _ _) (described_id _ _ _) ⟨_, rfl, rfl⟩ (denotes_ofNum hw))
  | constant id v => exact fin rfl (.constant (described_type _ _ _) (described_id _ _ _) ⟨_, rfl, rfl⟩ (denotes_ofNum hw))
  | identity id => exact fin rfl (.identity (described_type _ _ _) (described_id _ _ _))
  | count id => exact fin rfl (.count (described_type _ _ _) (described_id _ _ _))
  | cumSum id => exact fin rfl (.cumSum (described_type _ _ _) (described_id _ _ _))
  | difference id b =>
    cases (show b = true from hw)
    exact fin rfl (.difference (described_type _ _ _) (described_id _ _ _))
  | movAvg id n =>
    have hn : (Inp.new i1 n : Inp V).max < 2 ^ 64 := hw (i1, Inp.new i1 n) (List.mem_singleton.2 rfl)
    have := Describes.movAvg (junk := junk) (described_type b!"MovingAverage" id [(b!"n", (Json.ofSize (Inp.new i1 n : Inp V).max : Json V))]) (described_id _ _ _)
      ⟨_, rfl, rfl⟩
    rw [ofSize_toNat hn, Op.newMovAvg, simple_max] at this
    exact fin rfl this
  | stdDev id n =>
    have hn : (Inp.new i1 n : Inp V).max < 2 ^ 64 := hw (i1, Inp.new i1 n) (List.mem_singleton.2 rfl)
    have := Describes.stdDev (junk := junk) (described_type b!"StandardDeviation" id [(b!"n", (Json.ofSize (Inp.new i1 n : Inp V).max : Json V))]) (described_id _ _ _)
      ⟨_, rfl, rfl⟩
    rw [ofSize_toNat hn, Op.newStdDev, simple_max] at this
    exact fin rfl this
  | peak id n =>
    have hn : (Inp.new i1 n : Inp V).max < 2 ^ 64 := hw (i1, Inp.new i1 n) (List.mem_singleton.2 rfl)
    have := Describes.peak (junk := junk) (described_type b!"PeakDetector" id [(b!"n", (Json.ofSize (Inp.new i1 n : Inp V).max : Json V))]) (described_id _ _ _)
      ⟨_, rfl, rfl⟩
    rw [ofSize_toNat hn, Op.newPeak, simple_max] at this
    exact fin rfl this
  | fir id coeff => exact fin rfl (.fir (described_type _ _ _) (described_id _ _ _) ⟨_, rfl, rfl⟩ (denotes_ofNums hw))
  | autoReg id coeff => exact fin rfl (.autoReg (described_type _ _ _) (described_id _ _ _) ⟨_, rfl, rfl⟩ (denotes_ofNums hw))
  | cosRes id dt => exact fin rfl (.cosRes (described_type _ _ _) (described_id _ _ _) ⟨_, rfl, rfl⟩)
  | hermRes id dt => exact fin rfl (.hermRes (described_type _ _ _) (described_id _ _ _) ⟨_, rfl, rfl⟩)
  | constRes h =>
    rename_i id dt t v
    unfold Op.newConstRes at h
    split at h
    · cases h
    · rename_i hdt
      cases h
      obtain ⟨t', h3, h4, h5⟩ := simpleOpOf_of_describes (junk := junk) (.constRes (described_type b!"ConstantResampler" id [(b!"interval", (.uint dt : Json V))])
        (described_id _ _ _) ⟨_, rfl, rfl⟩ (if_neg hdt))
      exact ⟨_, ⟨Core.simple id 1, .constRes dt junk.1 false junk.2⟩, t', rfl, ⟨rfl, .inr ⟨_, _, _, _, _, rfl, rfl⟩⟩, h3, h4, h5⟩
  | timeShift id dt times =>
    obtain ⟨h1, h2, h3⟩ := hw
    refine ⟨_, _, _, rfl, sameParams_refl _, described_type _ _ _, by decide, congrArg some ((id_then (described_id _ _ _) _).trans ?_)⟩
    have e1 : (Json.described b!"TimeShift" id [(b!"dt", .uint dt), (b!"times", Json.ofSigned times)] : Json V).value b!"dt" 1 Json.getInt = .ok (dt.toNat : Int) := by
      refine (show Member _ _ (.uint dt) from ⟨_, rfl, rfl⟩).value _ _ |>.trans ?_
      exact congrArg Except.ok (wrap32_small h1)
    have e2 : (Json.described b!"TimeShift" id [(b!"dt", .uint dt), (b!"times", Json.ofSigned times)] : Json V).value b!"times" 1 Json.getInt = .ok times := by
      refine (show Member _ _ (Json.ofSigned times) from ⟨_, rfl, rfl⟩).value _ _ |>.trans ?_
      unfold Json.ofSigned
      split
      · show Except.ok (Json.wrap32 times) = _
        unfold Json.wrap32
        congr 1
        omega
      · show Except.ok (Json.wrap32 (UInt64.ofInt times).toNat) = _
        obtain ⟨n, rfl⟩ : ∃ n : Nat, times = n := ⟨times.toNat, by omega⟩
        have : (UInt64.ofInt (n : Int)).toNat = n := by
          rw [UInt64.ofInt, UInt64.toNat_ofNat_of_lt']
          · omega
          · unfold UInt64.size; omega
        rw [this, wrap32_small (by omega)]
    refine (bind_of_ok e1 _).trans ((bind_of_ok e2 _).trans ?_)
    rw [ofInt_small]
    rfl
  | «variable» id v =>
    obtain ⟨h1, n, h2, h3, h4⟩ := hw
    refine ⟨_, _, _, rfl, sameParams_refl _, described_type _ _ _, by decide, congrArg some ((id_then (described_id _ _ _) _).trans ?_)⟩
    have e1 : (Json.described b!"Variable" id [(b!"value", Json.ofNum v)] : Json V).value b!"value" 0 Json.getInt = .ok (n.toNat : Int) := by
      refine (show Member _ _ (Json.ofNum v) from ⟨_, rfl, rfl⟩).value _ _ |>.trans ?_
      unfold Json.ofNum finite
      rw [if_pos h1]
      show Json.truncInt v = _
      unfold Json.truncInt
      rw [h4]
      dsimp only
      rw [if_pos h2]
    dsimp only [Op.newVariable] at e1 ⊢
    rw [e1]
    show Except.ok (Op.newVariable id (Json.ofInt (n.toNat : Int))) = _
    unfold Json.ofInt
    rw [if_neg (by omega), show (n.toNat : Int).natAbs = n.toNat by omega, ← h3]
    rfl
  | collector id n => exact hw.elim
  | rsi id n => exact hw.elim
  | function h =>
    unfold Op.newFunction at h
    split at h
    · cases h
    · split at h
      · cases h
      · cases h; exact hw.elim

end Rtbot
