import Verif.Spec.Server
import Verif.Lemmas.Map

/-! # Lemmas about the websocket server -/

namespace Rtbot.Served
open Rtbot Spec
variable {β V : Type}

/-! ## Texts -/

theorem digitsVal_append : ∀ (a b : Str) (n : Nat), digitsVal (a ++ b) n = (digitsVal a n).bind fun m => digitsVal b m
  | [], b, n => rfl
  | c :: a, b, n => by
    rw [List.cons_append, digitsVal, digitsVal]
    split
    · exact digitsVal_append a b _
    · rfl

theorem digit_byte {k : Nat} (h : k < 10) : (48 ≤ UInt8.ofNat (48 + k) ∧ UInt8.ofNat (48 + k) ≤ 57) ∧ (UInt8.ofNat (48 + k)).toNat - 48 = k := by
  have : ∀ k : Fin 10, (48 ≤ UInt8.ofNat (48 + k.1) ∧ UInt8.ofNat (48 + k.1) ≤ 57) ∧ (UInt8.ofNat (48 + k.1)).toNat - 48 = k.1 := by decide
  exact this ⟨k, h⟩

theorem digits_decRev : ∀ (f n : Nat), n < f → digitsVal (decRev f n).reverse 0 = some n
  | 0, n, h => by omega
  | f + 1, n, h => by
    rw [decRev]
    split
    · rename_i hn
      obtain ⟨h1, h2⟩ := digit_byte hn
      rw [List.reverse_singleton, digitsVal, if_pos h1, h2]
      simp [digitsVal]
    · rename_i hn
      obtain ⟨h1, h2⟩ := digit_byte (Nat.mod_lt n (by omega : 10 > 0))
      rw [List.reverse_cons, digitsVal_append, digits_decRev f (n / 10) (by omega)]
      show digitsVal _ (n / 10) = _
      rw [digitsVal, if_pos h1, h2, digitsVal]
      congr 1
      omega

theorem digits_toStr (n : Nat) : digitsVal (toStr n) 0 = some n := digits_decRev (n + 1) n (by omega)

theorem toStr_ne (n : Nat) : toStr n ≠ [] := by
  unfold toStr
  rw [decRev]
  split <;> simp

theorem parse_toStr (t : UInt64) : parseU64 (toStr t.toNat) = some t := by
  have hd := digits_toStr t.toNat
  have hn := toStr_ne t.toNat
  generalize toStr t.toNat = s at hd hn
  cases s with
  | nil => exact absurd rfl hn
  | cons c s =>
    have hc : c ≠ 43 := by
      rintro rfl
      rw [digitsVal, if_neg (by decide)] at hd
      cases hd
    unfold parseU64
    rw [dropPlus, if_neg hc]
    dsimp only
    rw [hd]
    dsimp only
    rw [if_pos t.toNat_lt]
    simp

theorem split_clean : ∀ {s : Str}, (44 : UInt8) ∉ s → splitComma s = [s]
  | [], _ => rfl
  | c :: s, h => by
    rw [splitComma, split_clean fun e => h (by simp [e])]
    simp only [if_neg (fun e => h (by simp [e]) : c ≠ 44)]

theorem split_two : ∀ {a b : Str}, (44 : UInt8) ∉ a → (44 : UInt8) ∉ b → splitComma (a ++ [44] ++ b) = [a, b]
  | [], b, _, hb => by
    show splitComma (44 :: b) = _
    rw [splitComma, split_clean hb]
    simp
  | c :: a, b, ha, hb => by
    show splitComma (c :: (a ++ [44] ++ b)) = _
    rw [splitComma, split_two (fun e => ha (by simp [e])) hb]
    simp only [if_neg (fun e => ha (by simp [e]) : c ≠ 44)]

theorem digits_clean : ∀ {s : Str} {n m : Nat}, digitsVal s n = some m → (44 : UInt8) ∉ s
  | [], _, _, _ => by simp
  | c :: s, n, m, h => by
    rw [digitsVal] at h
    split at h
    · rename_i hc
      intro hm
      rcases List.mem_cons.1 hm with rfl | hm
      · exact absurd hc.1 (by decide)
      · exact digits_clean h hm
    · cases h

theorem split_wire {env : ServerEnv β V} (hc : ∀ v, (44 : UInt8) ∉ env.text v) (t : UInt64) (v : V) : splitComma (wireText env t v) = [toStr t.toNat, env.text v] :=
  split_two (digits_clean (digits_toStr _)) (hc v)

theorem msg_wire (t : UInt64) (x : Str) : clientMsg [toStr t.toNat, x] = some ⟨t, [x]⟩ := by
  unfold clientMsg
  dsimp only
  rw [parse_toStr]
  rfl

/-! ## Redis only adds to what it has published -/

theorem publishAll_more {wire : V → Option V} : ∀ (res : List (Str × List (RsMsg V))) (r : Redis β V), r.published <+: (publishAll wire res r).state.published
  | [], r => List.prefix_rfl
  | (_, []) :: rest, r => by rw [publishAll]; exact publishAll_more rest r
  | (o, m :: ms) :: rest, r => by
    rw [publishAll]
    cases m.values with
    | nil => exact List.prefix_rfl
    | cons v vs =>
      dsimp only
      refine List.IsPrefix.trans ?_ (publishAll_more rest _)
      have : ∀ r', tsAdd wire o m.time v r = some r' → r'.published = r.published := by
        intro r' h
        unfold tsAdd at h
        split at h
        · cases h
        · split at h
          · cases h
          · cases h; rfl
          · rw [Option.map_eq_some_iff] at h
            obtain ⟨_, _, rfl⟩ := h
            rfl
      cases hr : tsAdd wire o m.time v r with
      | none => exact List.prefix_append _ _
      | some r' =>
        dsimp only
        rw [this r' hr]
        exact List.prefix_append _ _

theorem tsAdd_published {wire : V → Option V} {o : Str} {t : UInt64} {v : V} {r r' : Redis β V} (h : tsAdd wire o t v r = some r') : r'.published = r.published := by
  unfold tsAdd at h
  split at h
  · cases h
  · split at h
    · cases h
    · cases h; rfl
    · rw [Option.map_eq_some_iff] at h
      obtain ⟨_, _, rfl⟩ := h
      rfl

theorem onAdd_more {b : Bridge β V} {wire : V → Option V} {key : Str} (r : Redis β V) : r.published <+: (onAdd b wire key r).state.published := by
  unfold onAdd
  split
  · exact List.prefix_rfl
  · split
    · exact List.prefix_rfl
    · split
      · exact List.prefix_rfl
      · split
        · exact List.prefix_rfl
        · exact List.prefix_rfl
        · rename_i res g _
          exact publishAll_more res { r with registry := some g }

theorem addSample_more {b : Bridge β V} {wire : V → Option V} {key : Str} {t : UInt64} {v : V} (r : Redis β V) :
    r.published <+: (addSample b wire key t v r).state.published := by
  unfold addSample
  split
  · exact List.prefix_rfl
  · rename_i r' h
    have := onAdd_more (b := b) (wire := wire) (key := key) r'
    rw [tsAdd_published h] at this
    split
    · rename_i x hx
      rw [hx] at this
      exact this
    · exact this

/-! ## The invariant -/

/-- The words of a message on its way. -/
def words (m : ClientMsg) : List Str := toStr m.timestamp.toNat :: m.values

/-- What waits between the tasks is the end of what was announced. -/
structure Inv (env : ServerEnv β V) (s : Server β V) : Prop where
  sending : s.sending = true
  queue : ∃ k, k ≤ (announced env s).length ∧ s.queue = ((announced env s).drop k).map words
  since : ∀ n, s.since = some n → n ≤ s.redis.published.length

theorem Inv.passed {env : ServerEnv β V} {s : Server β V} (h : Inv env s) :
    passedOn env s ≤ (announced env s).length ∧ s.queue = ((announced env s).drop (passedOn env s)).map words := by
  obtain ⟨k, hk, hq⟩ := h.queue
  have hl : s.queue.length = (announced env s).length - k := by rw [hq]; simp
  have : passedOn env s = k := by unfold passedOn; omega
  rw [this]
  exact ⟨hk, hq⟩

theorem words_wire {env : ServerEnv β V} (hc : ∀ v, (44 : UInt8) ∉ env.text v) (ch : Str) (l : List (Str × UInt64 × V)) :
    (onChannel env ch l).map splitComma = ((l.filter fun p => p.1 = ch).map fun p => (⟨p.2.1, [env.text p.2.2]⟩ : ClientMsg)).map words := by
  unfold onChannel
  rw [List.map_map, List.map_map]
  refine List.map_congr_left fun p _ => ?_
  exact split_wire hc _ _

theorem msg_words {m : ClientMsg} : clientMsg (words m) = some m := by
  unfold clientMsg words
  simp only [parse_toStr]
  rfl

/-- Redis went on from a state in which less was published. -/
theorem heard_inv {env : ServerEnv β V} (hc : ∀ v, (44 : UInt8) ∉ env.text v) {s : Server β V} (h : Inv env s) {r : Redis β V}
    (hr : s.redis.published <+: r.published) : Inv env (s.heard env r) ∧ announced env s <+: announced env (s.heard env r) ∧
      passedOn env (s.heard env r) = passedOn env s ∧ (s.heard env r).clients = s.clients := by
  obtain ⟨new, hnew⟩ := hr
  obtain ⟨redis, up, key, channel, remap, reading, since, queue, sending, clients⟩ := s
  dsimp only at hnew
  cases since with
  | none =>
    refine ⟨⟨h.sending, h.queue, fun n hn => (by cases hn)⟩, List.prefix_rfl, rfl, rfl⟩
  | some n =>
    have hle : n ≤ redis.published.length := h.since n rfl
    have hdrop : r.published.drop n = redis.published.drop n ++ new := by
      rw [← hnew, List.drop_append_of_le_length hle]
    have h1 : ∀ q, announced env ⟨r, up, key, channel, remap, reading, some n, q, sending, clients⟩ =
        announced env ⟨redis, up, key, channel, remap, reading, some n, queue, sending, clients⟩ ++
          ((new.filter fun p => p.1 = channel).map fun p => (⟨p.2.1, [env.text p.2.2]⟩ : ClientMsg)) := by
      intro q
      unfold announced
      dsimp only
      rw [hdrop, List.filter_append, List.map_append]
    have hq : queue ++ (onChannel env channel (r.published.drop redis.published.length)).map splitComma =
        queue ++ ((new.filter fun p => p.1 = channel).map fun p => (⟨p.2.1, [env.text p.2.2]⟩ : ClientMsg)).map words := by
      rw [← hnew, List.drop_left, words_wire hc]
    obtain ⟨hp1, hp2⟩ := h.passed
    have hp3 : passedOn env ⟨redis, up, key, channel, remap, reading, some n, queue, sending, clients⟩ =
      (announced env ⟨redis, up, key, channel, remap, reading, some n, queue, sending, clients⟩).length - queue.length := rfl
    have hl := congrArg List.length hp2
    unfold Server.heard
    dsimp only
    rw [hq]
    dsimp only at hp2 hl
    refine ⟨⟨h.sending, ⟨passedOn env ⟨redis, up, key, channel, remap, reading, some n, queue, sending, clients⟩, ?_, ?_⟩, ?_⟩, ?_, ?_, rfl⟩
    · rw [h1, List.length_append]; omega
    · rw [h1, List.drop_append_of_le_length hp1, List.map_append, ← hp2]
    · intro m hm
      cases hm
      dsimp only
      rw [← hnew, List.length_append]
      omega
    · rw [h1]; exact List.prefix_append _ _
    · rw [passedOn, h1]
      simp only [List.length_append, List.length_map, List.length_drop] at hl ⊢
      omega

/-! ## Clients -/

theorem find_sendAll {m : ClientMsg} {id : Str} {c : WsClient} (ho : c.open_ = true) : ∀ {cs : Map WsClient}, cs.find? id = some c →
    (sendAll m cs).find? id = some { c with queue := c.queue ++ [m] }
  | [], h => by cases h
  | (k, x) :: cs, h => by
    rw [Map.find?] at h
    rw [sendAll]
    by_cases hk : k = id
    · rw [if_pos hk] at h
      cases h
      rw [if_pos ho, Map.find?, if_pos hk]
    · rw [if_neg hk] at h
      split
      · rw [Map.find?, if_neg hk]
        exact find_sendAll ho h
      · exact find_sendAll ho h

end Rtbot.Served
