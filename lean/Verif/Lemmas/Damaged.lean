import Verif.Lemmas.Codec
import Verif.Lemmas.CreateEnd
import Verif.Lemmas.Declared
import Verif.Spec.Damaged

set_option linter.unusedSectionVars false

/-! # Reading arbitrary bytes -/

namespace Rtbot
variable {V : Type} [Num V]
open Spec

/-- How reading bytes can fail. -/
def Unreadable (e : Err) : Prop := e = .ub .outOfBounds ∨ e = .ub .badBool

/-- A reader that fails only in these ways, takes bytes from the front and returns something of the kind. -/
def Taking {α : Type} (p : α → Prop) (r : Reader α) : Prop :=
  ∀ bs, (∀ e, r bs = .error e → Unreadable e) ∧ ∀ a rest, r bs = .ok (a, rest) → p a ∧ ∃ used, bs = used ++ rest

theorem Taking.weaken {α : Type} {p q : α → Prop} {r : Reader α} (h : Taking p r) (hq : ∀ a, p a → q a) : Taking q r :=
  fun bs => ⟨(h bs).1, fun a rest ha => ⟨hq a ((h bs).2 a rest ha).1, ((h bs).2 a rest ha).2⟩⟩

theorem taking_pure {α : Type} {p : α → Prop} {a : α} (h : p a) : Taking p (Pure.pure a : Reader α) :=
  fun bs => ⟨fun e he => (by cases he), fun a' rest ha => by cases ha; exact ⟨h, [], rfl⟩⟩

theorem taking_bind {α β : Type} {p : α → Prop} {q : β → Prop} {r : Reader α} {f : α → Reader β} (hr : Taking p r) (hf : ∀ a, p a → Taking q (f a)) :
    Taking q (r >>= f) := by
  intro bs
  have h := hr bs
  change (∀ e, Reader.bind r f bs = .error e → _) ∧ ∀ a rest, Reader.bind r f bs = .ok (a, rest) → _
  unfold Reader.bind
  cases hb : r bs with
  | error e => exact ⟨fun e' he => by cases he; exact h.1 e hb, fun a rest ha => by cases ha⟩
  | ok x =>
    obtain ⟨a, bs'⟩ := x
    obtain ⟨hp, used, rfl⟩ := h.2 a bs' hb
    have h' := hf a hp bs'
    refine ⟨h'.1, fun c rest hc => ?_⟩
    obtain ⟨hq, used', rfl⟩ := h'.2 c rest hc
    exact ⟨hq, used ++ used', by rw [List.append_assoc]⟩

theorem taking_bytes (k : Nat) : Taking (fun b => b.length = k) (getBytes k) := by
  induction k with
  | zero => exact taking_pure rfl
  | succ k ih =>
    intro bs
    cases bs with
    | nil => exact ⟨fun e he => by cases he; exact Or.inl rfl, fun a rest ha => by cases ha⟩
    | cons b bs =>
      have := taking_bind (q := fun b => b.length = k + 1) ih (f := fun rest => (Pure.pure (b :: rest) : Reader Bytes))
        (fun a ha => taking_pure (by simp [ha])) bs
      refine ⟨this.1, fun a rest ha => ?_⟩
      obtain ⟨h1, used, h2⟩ := this.2 a rest ha
      exact ⟨h1, b :: used, by rw [h2]; rfl⟩

theorem taking_size : Taking (fun _ => True) getSize := taking_bind (taking_bytes 8) fun _ _ => taking_pure trivial
theorem taking_u64 : Taking (fun _ => True) getU64 := taking_bind taking_size fun _ _ => taking_pure trivial
theorem taking_val : Taking (fun _ => True) (getVal : Reader V) := taking_bind taking_u64 fun _ _ => taking_pure trivial
theorem taking_str : Taking (fun _ => True) getStr := taking_bind taking_size fun n _ => (taking_bytes n).weaken fun _ _ => trivial
theorem taking_bool : Taking (fun _ => True) getBool := by
  refine taking_bind (taking_bytes 1) fun bs _ => ?_
  split
  · exact taking_pure trivial
  · split
    · exact taking_pure trivial
    · exact fun _ => ⟨fun e he => by cases he; exact Or.inr rfl, fun a rest ha => by cases ha⟩
theorem taking_many {α : Type} {r : Reader α} (h : Taking (fun _ => True) r) (n : Nat) : Taking (fun _ => True) (getMany r n) := by
  induction n with
  | zero => exact taking_pure trivial
  | succ n ih => exact taking_bind h fun _ _ => taking_bind ih fun _ _ => taking_pure trivial
theorem taking_msg : Taking (fun _ => True) (getMsg : Reader (Msg V)) := taking_bind taking_u64 fun _ _ => taking_bind taking_val fun _ _ => taking_pure trivial
theorem taking_inp : Taking (fun _ => True) (getInp : Reader (Inp V)) :=
  taking_bind taking_str fun _ _ => taking_bind taking_size fun _ _ => taking_bind taking_val fun _ _ => taking_bind taking_size fun n _ =>
    taking_bind (taking_many taking_msg n) fun _ _ => taking_pure trivial
theorem taking_portInp : Taking (fun _ => True) (getPortInp : Reader (Inp V)) := taking_bind taking_str fun _ _ => taking_inp
theorem taking_last : Taking (fun _ => True) (getLast : Reader (Str × Msg V)) := taking_bind taking_str fun _ _ => taking_bind taking_msg fun _ _ => taking_pure trivial
theorem taking_point : Taking (fun _ => True) (getPoint : Reader (V × V)) := taking_bind taking_val fun _ _ => taking_bind taking_val fun _ _ => taking_pure trivial

theorem has_iff_found {β : Type} {m : Map β} {k : Str} : m.has k = true ↔ ∃ v, m.find? k = some v := by
  unfold Map.has
  cases m.find? k <;> simp

theorem restoreInputs_keep (is : List (Inp V)) : ∀ (m : Map (Inp V)) (p : Str), m.has p = true → (restoreInputs m is).has p = true := by
  induction is with
  | nil => intro m p h; exact h
  | cons i is ih =>
    intro m p h
    refine ih _ p ?_
    rw [has_iff_found] at h ⊢
    rw [Map.find?_emplace, Map.find?_erase]
    split
    · exact ⟨_, rfl⟩
    · rw [Map.find?_erase, if_neg (by assumption)]
      exact h

theorem taking_core (c : Core V) : Taking (fun c' => c'.id = c.id ∧ c'.outIds = c.outIds ∧ c'.outputs = c.outputs ∧
    (∀ p, c.dataIn.has p = true → c'.dataIn.has p = true) ∧ ∀ p, c.ctrlIn.has p = true → c'.ctrlIn.has p = true) c.restore :=
  taking_bind taking_size fun n _ => taking_bind (taking_many taking_portInp n) fun is _ => taking_bind taking_size fun k _ =>
    taking_bind (taking_many taking_portInp k) fun cs _ => taking_bind taking_size fun t _ => taking_bind (taking_many taking_str t) fun _ _ =>
      taking_pure ⟨rfl, rfl, rfl, restoreInputs_keep is _, restoreInputs_keep cs _⟩

theorem taking_kind (k : Kind V) : Taking (SameClass k) k.restore := by
  cases k
  case input => exact taking_bind taking_size fun n _ => taking_bind (taking_many taking_last n) fun _ _ => taking_pure (.input _ _ _)
  case count => exact taking_bind taking_u64 fun n _ => taking_pure (.count _ _)
  case «variable» => exact taking_bind taking_val fun _ _ => taking_bind taking_bool fun _ _ => taking_pure (.variable _ _ _ _)
  case constRes =>
    exact taking_bind taking_u64 fun _ _ => taking_bind taking_u64 fun _ _ => taking_bind taking_bool fun _ _ => taking_bind taking_val fun _ _ =>
      taking_pure (.constRes _ _ _ _ _ _ _ _)
  case cosRes => exact taking_bind taking_u64 fun n _ => taking_pure (.cosRes _ _ _)
  case hermRes =>
    refine taking_bind taking_u64 fun n _ => taking_bind taking_bool fun b _ => ?_
    split
    · exact taking_bind taking_msg fun _ _ => taking_pure (.hermRes _ _ _ _ _)
    · exact taking_pure (.hermRes _ _ _ _ _)
  case function =>
    exact taking_bind taking_size fun n _ => taking_bind (taking_many taking_point n) fun _ _ => taking_bind (taking_bytes 4) fun _ _ => taking_pure (.function _ _ _ _)
  all_goals exact taking_pure (.same _)

theorem taking_restore (o : Op V) : Taking (Outline o) o.restore := by
  have key : Taking (Outline o) (do let c ← o.core.restore; let k' ← o.kind.restore; Pure.pure ⟨c, k'⟩ : Reader (Op V)) :=
    taking_bind (taking_core o.core) fun c ⟨h1, h2, h3, h4, h5⟩ => taking_bind (taking_kind o.kind) fun k hk => taking_pure ⟨h1, h2, h3, hk, h4, h5⟩
  obtain ⟨c, k⟩ := o
  cases k
  case cumSum x =>
    exact taking_bind taking_val fun _ _ => taking_pure ⟨rfl, rfl, rfl, .cumSum _ _, fun _ h => h, fun _ h => h⟩
  all_goals exact key

theorem SameClass.trans {a b c : Kind V} (h : SameClass a b) (h' : SameClass b c) : SameClass a c := by
  cases h <;> first | exact h' | (cases h' <;> constructor)

theorem Outline.trans {a b c : Op V} (h : Outline a b) (h' : Outline b c) : Outline a c :=
  ⟨h'.id.trans h.id, h'.outIds.trans h.outIds, h'.outputs.trans h.outputs, SameClass.trans h.kind h'.kind, fun p hp => h'.data p (h.data p hp),
    fun p hp => h'.ctrl p (h.ctrl p hp)⟩

theorem Outline.refl (o : Op V) : Outline o o := ⟨rfl, rfl, rfl, .same _, fun _ h => h, fun _ h => h⟩

/-- The same operators up to what bytes can change. -/
structure Restoring (s s' : St V) : Prop where
  depth : s'.depth = s.depth
  log : s'.log = s.log
  some : ∀ a o, s.heap a = some o → ∃ o', s'.heap a = some o' ∧ Outline o o'
  none : ∀ a, s.heap a = none → s'.heap a = none

theorem getStr_take {bs : Bytes} {s : Str} {rest : Bytes} (h : getStr bs = .ok (s, rest)) : bs = putStr s ++ rest ∧ Word s.length := by
  have hle : ∀ l : Bytes, leBytes l.length (ofLe l) = l := by
    intro l
    induction l with
    | nil => rfl
    | cons b l ih =>
      have hb : b.toNat < 256 := b.toNat_lt
      show UInt8.ofNat ((b.toNat + 256 * ofLe l) % 256) :: leBytes l.length ((b.toNat + 256 * ofLe l) / 256) = _
      rw [show (b.toNat + 256 * ofLe l) % 256 = b.toNat by omega, show (b.toNat + 256 * ofLe l) / 256 = ofLe l by omega, ih]
      simp
  have hlt : ∀ l : Bytes, ofLe l < 256 ^ l.length := by
    intro l
    induction l with
    | nil => simp [ofLe]
    | cons b l ih =>
      have hb : b.toNat < 256 := b.toNat_lt
      simp only [ofLe, List.length_cons, Nat.pow_succ]
      omega
  have hget : ∀ k (bs l rest : Bytes), getBytes k bs = .ok (l, rest) → bs = l ++ rest := by
    intro k
    induction k with
    | zero => intro bs l rest h; cases h; rfl
    | succ k ih =>
      intro bs l rest h
      cases bs with
      | nil => cases h
      | cons b bs =>
        change Reader.bind (getBytes k) (fun rest => Reader.pure (b :: rest)) bs = _ at h
        unfold Reader.bind at h
        cases hg : getBytes k bs with
        | error e => rw [hg] at h; cases h
        | ok x =>
          obtain ⟨l', rest'⟩ := x
          rw [hg] at h
          cases h
          rw [ih _ _ _ hg]
          rfl
  change Reader.bind (Reader.bind (getBytes 8) fun b => Reader.pure (ofLe b)) getBytes bs = _ at h
  unfold Reader.bind at h
  cases hg : getBytes 8 bs with
  | error e => rw [hg] at h; cases h
  | ok x =>
    obtain ⟨l, bs'⟩ := x
    rw [hg] at h
    change getBytes (ofLe l) bs' = _ at h
    have h8 : l.length = 8 := ((taking_bytes 8 bs).2 _ _ hg).1
    have hs : s.length = ofLe l := ((taking_bytes _ bs').2 _ _ h).1
    have h1 := hget _ _ _ _ hg
    have h2 := hget _ _ _ _ h
    refine ⟨?_, ?_⟩
    · unfold putStr putSize
      rw [hs, ← h8, hle, List.append_assoc, ← h2, h1]
    · have := hlt l
      rw [h8] at this
      unfold Word
      rw [hs]
      exact this

theorem restoreOps_any (ops : Map Nat) : ∀ (n : Nat) (s : St V) (bs : Bytes), bs.length ≤ n → (∀ id a, ops.find? id = some a → ∃ o, s.heap a = some o) →
    (∀ e, restoreOps ops n s bs = .error e → Unreadable e ∨ e = .exc .outOfRange) ∧
    ∀ s', restoreOps ops n s bs = .ok s' → Restoring s s' := by
  intro n
  induction n with
  | zero =>
    intro s bs hn hs
    rw [List.eq_nil_of_length_eq_zero (Nat.le_zero.1 hn)]
    exact ⟨fun e he => (by cases he), fun s' h => by cases h; exact ⟨rfl, rfl, fun a o ho => ⟨o, ho, Outline.refl o⟩, fun a h => h⟩⟩
  | succ n ih =>
    intro s bs hn hs
    unfold restoreOps
    split
    · exact ⟨fun e he => (by cases he), fun s' h => by cases h; exact ⟨rfl, rfl, fun a o ho => ⟨o, ho, Outline.refl o⟩, fun a h => h⟩⟩
    · cases hg : getStr bs with
      | error e => exact ⟨fun e' he => by cases he; exact Or.inl ((taking_str bs).1 _ hg), fun s' h => by cases h⟩
      | ok x =>
        obtain ⟨id, bs'⟩ := x
        obtain ⟨rfl, _⟩ := getStr_take hg
        have hlen : bs'.length < n + 1 := by
          simp only [putStr, putSize, List.length_append, length_leBytes] at hn
          omega
        dsimp only
        cases hf : ops.find? id with
        | none => exact ⟨fun e' he => by cases he; exact Or.inr rfl, fun s' h => by cases h⟩
        | some a =>
          obtain ⟨o, ho⟩ := hs id a hf
          dsimp only
          rw [ho]
          dsimp only
          cases hr : o.restore bs' with
          | error e => exact ⟨fun e' he => by cases he; exact Or.inl ((taking_restore o bs').1 _ hr), fun s' h => by cases h⟩
          | ok y =>
            obtain ⟨o', bs''⟩ := y
            obtain ⟨hout, used, rfl⟩ := (taking_restore o bs').2 _ _ hr
            dsimp only
            have := ih (s.setOp a o') bs'' (by rw [List.length_append] at hlen; omega) fun id b hb => by
              by_cases hba : b = a
              · exact ⟨o', by simp [St.setOp, hba]⟩
              · obtain ⟨ob, hob⟩ := hs id b hb
                exact ⟨ob, by simp [St.setOp, hba, hob]⟩
            refine ⟨this.1, fun s' h => ?_⟩
            have g := this.2 s' h
            refine ⟨g.depth, g.log, fun b ob hob => ?_, fun b hb => ?_⟩
            · by_cases hba : b = a
              · subst hba
                rw [ho] at hob
                cases hob
                obtain ⟨o2, h1, h2⟩ := g.some b o' (by simp [St.setOp])
                exact ⟨o2, h1, Outline.trans hout h2⟩
              · exact g.some b ob (by simp [St.setOp, hba, hob])
            · refine g.none b ?_
              have hba : b ≠ a := fun h => by rw [h, ho] at hb; cases hb
              simp [St.setOp, hba, hb]

end Rtbot
