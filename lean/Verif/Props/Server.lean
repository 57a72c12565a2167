import Verif.Lemmas.Server
import Verif.Props.Redis

/-! # C86, C87: the websocket server -/

namespace Rtbot
open Spec Served
variable {β V : Type}

/-! ## Clients -/

namespace Served

theorem find_sent {m : ClientMsg} {id : Str} : ∀ {cs : Map WsClient}, cs.Sorted →
    (sendAll m cs).find? id = (cs.find? id).bind fun c => if c.open_ then some { c with queue := c.queue ++ [m] } else none
  | [], _ => rfl
  | (k, x) :: cs, h => by
    rw [sendAll, Map.find?]
    by_cases hk : k = id
    · rw [if_pos hk]
      by_cases ho : x.open_ = true
      · simp [ho, hk]
      · have hno : Map.find? cs id = none := by
          rw [Map.find?_none_iff]
          intro hm
          have := h.head_lt hm
          dsimp only at this
          rw [hk, strLt_irrefl] at this
          cases this
        simp [ho, find_sent h.tail, hno]
    · rw [if_neg hk]
      split
      · rw [Map.find?, if_neg hk, find_sent h.tail]
      · rw [find_sent h.tail]

theorem sent_keys {m : ClientMsg} : ∀ {cs : Map WsClient}, (sendAll m cs).keys.Sublist cs.keys
  | [] => .slnil
  | (k, x) :: cs => by
    rw [sendAll]
    split
    · exact (sent_keys (cs := cs)).cons_cons k
    · exact (sent_keys (cs := cs)).cons k

theorem onClient_sorted {id : Str} {f : WsClient → WsClient} {cs : Map WsClient} (h : cs.Sorted) : (onClient id f cs).Sorted := by
  unfold onClient
  split
  · exact h
  · exact h.put _ _

theorem find_onClient {id k : Str} {f : WsClient → WsClient} {cs : Map WsClient} :
    (onClient id f cs).find? k = if k = id then (cs.find? id).map f else cs.find? k := by
  unfold onClient
  split
  · rename_i h
    split
    · rename_i e; rw [e, h]; rfl
    · rfl
  · rename_i c h
    rw [Map.find?_put]
    simp only [h, Option.map_some, eq_comm]

/-- The invariant of the server. -/
structure SvGood (env : ServerEnv β V) (s : Server β V) : Prop where
  inv : Inv env s
  sorted : s.clients.Sorted

/-- What a step does to the messages and to the clients. -/
structure Step (env : ServerEnv β V) (m : Move) (s s' : Server β V) : Prop where
  good : SvGood env s'
  more : announced env s <+: announced env s'
  clients : (passedOn env s' = passedOn env s ∧ match m with
      | .join id => s'.clients = s.clients.put id ⟨true, [], []⟩
      | .write id => s'.clients = onClient id WsClient.write s.clients
      | .fail id => s'.clients = onClient id (fun c => { c with open_ := false, queue := [] }) s.clients
      | _ => s'.clients = s.clients) ∨
    (m = .deliver ∧ passedOn env s' = passedOn env s + 1 ∧ ∃ x, (announced env s)[passedOn env s]? = some x ∧
      (s'.clients = sendAll x s.clients))

theorem announced_eq {env : ServerEnv β V} {s s' : Server β V} (h1 : s'.since = s.since) (h2 : s'.redis = s.redis) (h3 : s'.channel = s.channel) :
    announced env s' = announced env s := by
  unfold announced
  rw [h1, h2, h3]

theorem good_same {env : ServerEnv β V} {s s' : Server β V} (h : SvGood env s) (h1 : s'.since = s.since) (h2 : s'.redis = s.redis) (h3 : s'.channel = s.channel)
    (h4 : s'.queue = s.queue) (h5 : s'.sending = s.sending) (h6 : s'.clients.Sorted) :
    SvGood env s' ∧ announced env s <+: announced env s' ∧ passedOn env s' = passedOn env s := by
  have ha := announced_eq (env := env) h1 h2 h3
  refine ⟨⟨⟨by rw [h5]; exact h.inv.sending, by rw [ha, h4]; exact h.inv.queue, by rw [h1, h2]; exact h.inv.since⟩, h6⟩, by rw [ha], ?_⟩
  unfold passedOn
  rw [ha, h4]

theorem heard_step {env : ServerEnv β V} (hc : ∀ v, (44 : UInt8) ∉ env.text v) {s : Server β V} (h : SvGood env s) {r : Redis β V}
    (hr : s.redis.published <+: r.published) (up reading : Bool) (now : UInt64) (payload : Str) :
    Step env (.input now payload) s { s.heard env r with up := up, reading := reading } := by
  obtain ⟨h1, h2, h3, h4⟩ := heard_inv hc h.inv hr
  have hg : SvGood env (s.heard env r) := ⟨h1, by rw [h4]; exact h.sorted⟩
  obtain ⟨g1, g2, g3⟩ := good_same (s' := { s.heard env r with up := up, reading := reading }) hg rfl rfl rfl rfl rfl hg.sorted
  exact ⟨g1, h2.trans g2, .inl ⟨g3.trans h3, h4⟩⟩

theorem step_does {env : ServerEnv β V} (hc : ∀ v, (44 : UInt8) ∉ env.text v) {s : Server β V} (h : SvGood env s) (m : Move) : Step env m s (s.step env m) := by
  have same : ∀ m, (∀ id, m ≠ .join id) → (∀ id, m ≠ .write id) → (∀ id, m ≠ .fail id) → Step env m s s := by
    intro m m1 m2 m3
    refine ⟨h, List.prefix_rfl, .inl ⟨rfl, ?_⟩⟩
    cases m with
    | join id => exact absurd rfl (m1 id)
    | write id => exact absurd rfl (m2 id)
    | fail id => exact absurd rfl (m3 id)
    | _ => rfl
  cases m with
  | input now payload =>
    have hsame := same (.input now payload) (by simp) (by simp) (by simp)
    unfold Server.step
    dsimp only
    split
    · split
      · obtain ⟨g1, g2, g3⟩ := good_same (s' := { s with reading := false }) h rfl rfl rfl rfl rfl h.sorted
        exact ⟨g1, g2, .inl ⟨g3, rfl⟩⟩
      · rename_i t v _
        split
        · have hp := addSample_more (b := env.redis.bridge) (wire := env.redis.wire) (key := s.key) (t := t) (v := v) s.redis
          cases ha : addSample env.redis.bridge env.redis.wire s.key t v s.redis with
          | ok a r =>
            rw [ha] at hp
            exact heard_step hc h hp (s.heard env r).up (s.heard env r).reading now payload
          | err r =>
            rw [ha] at hp
            exact heard_step hc h hp (s.heard env r).up (s.heard env r).reading now payload
          | panic r =>
            rw [ha] at hp
            exact heard_step hc h hp false (s.heard env r).reading now payload
          | hang r =>
            rw [ha] at hp
            exact heard_step hc h hp false false now payload
        · exact hsame
    · exact hsame
  | subscribe =>
    have hsame := same .subscribe (by simp) (by simp) (by simp)
    unfold Server.step
    dsimp only
    split
    · split
      · rename_i hs
        have h0 : announced env s = [] := by unfold announced; rw [hs]
        have h1 : announced env { s with since := some s.redis.published.length } = [] := by
          unfold announced
          simp
        obtain ⟨k, hk, hq⟩ := h.inv.queue
        rw [h0] at hk hq
        refine ⟨⟨⟨h.inv.sending, ⟨k, by rw [h1]; exact hk, by rw [h1]; exact hq⟩, fun n hn => by cases hn; exact Nat.le_refl _⟩, h.sorted⟩, by rw [h0]; exact List.nil_prefix,
          .inl ⟨?_, rfl⟩⟩
        unfold passedOn
        rw [h0, h1]
      · exact hsame
    · exact hsame
  | deliver =>
    have hsame := same .deliver (by simp) (by simp) (by simp)
    obtain ⟨p1, p2⟩ := h.inv.passed
    unfold Server.step
    dsimp only
    rw [if_pos h.inv.sending]
    cases hq : s.queue with
    | nil => exact hsame
    | cons w q =>
      dsimp only
      rw [hq] at p2
      cases hd : (announced env s).drop (passedOn env s) with
      | nil => rw [hd] at p2; cases p2
      | cons x rest =>
        rw [hd, List.map_cons] at p2
        obtain ⟨rfl, rfl⟩ := List.cons.inj p2
        have hx : (announced env s)[passedOn env s]? = some x := by
          have := congrArg (·[0]?) hd
          simpa using this
        have hlt : passedOn env s < (announced env s).length := (List.getElem?_eq_some_iff.1 hx).1
        have hrest : (announced env s).drop (passedOn env s + 1) = rest := by
          rw [← List.drop_drop, hd]
          rfl
        have key : ∀ cs, Map.Sorted cs → cs = sendAll x s.clients → Step env .deliver s { s with queue := rest.map words, clients := cs } := by
          intro cs hs hcs
          have ha : announced env { s with queue := rest.map words, clients := cs } = announced env s := rfl
          refine ⟨⟨⟨h.inv.sending, ⟨passedOn env s + 1, by rw [ha]; omega, by rw [ha, hrest]⟩, h.inv.since⟩, hs⟩, by rw [ha], .inr ⟨rfl, ?_, x, hx, hcs⟩⟩
          have hl := congrArg List.length hrest
          rw [List.length_drop] at hl
          show (announced env s).length - (rest.map words).length = _
          rw [List.length_map]
          omega
        split
        · rename_i hcl
          exact key s.clients h.sorted (by rw [hcl]; rfl)
        · rw [msg_words]
          exact key _ (by have := h.sorted; unfold Map.Sorted at this ⊢; exact this.sublist sent_keys) rfl
  | join id =>
    obtain ⟨g1, g2, g3⟩ := good_same (s' := s.step env (.join id)) h rfl rfl rfl rfl rfl (h.sorted.put _ _)
    exact ⟨g1, g2, .inl ⟨g3, rfl⟩⟩
  | write id =>
    obtain ⟨g1, g2, g3⟩ := good_same (s' := s.step env (.write id)) h rfl rfl rfl rfl rfl (onClient_sorted h.sorted)
    exact ⟨g1, g2, .inl ⟨g3, rfl⟩⟩
  | fail id =>
    obtain ⟨g1, g2, g3⟩ := good_same (s' := s.step env (.fail id)) h rfl rfl rfl rfl rfl (onClient_sorted h.sorted)
    exact ⟨g1, g2, .inl ⟨g3, rfl⟩⟩

theorem steps_good {env : ServerEnv β V} (hc : ∀ v, (44 : UInt8) ∉ env.text v) : ∀ (l : List Move) {s : Server β V}, SvGood env s → SvGood env (s.steps env l)
  | [], _, h => h
  | m :: l, _, h => steps_good hc l (step_does hc h m).good

theorem started_good {env : ServerEnv β V} (remap : Remap) (keys : Str × Str) (r : Redis β V) : SvGood env (Server.started remap keys r) :=
  ⟨⟨rfl, ⟨0, Nat.zero_le _, rfl⟩, fun n hn => (by cases hn)⟩, Map.Sorted.nil⟩

/-- What is known of a client while the messages in `piece` were handed on. -/
def Has (s : Server β V) (id : Str) (piece : List ClientMsg) : Prop :=
  ∀ c, s.clients.find? id = some c → (c.open_ = true → c.sent ++ c.queue = piece) ∧ c.sent <+: piece

/-- What was handed on grows from step to step. -/
theorem between_same {env : ServerEnv β V} {s1 s s' : Server β V} (hp : passedOn env s ≤ (announced env s).length)
    (hm : announced env s <+: announced env s') (he : passedOn env s' = passedOn env s) : passedBetween env s1 s' = passedBetween env s1 s := by
  obtain ⟨new, hn⟩ := hm
  unfold passedBetween
  rw [he, ← hn]
  by_cases hle : passedOn env s1 ≤ (announced env s).length
  · rw [List.drop_append_of_le_length hle, List.take_append_of_le_length (by rw [List.length_drop]; omega)]
  · rw [Nat.sub_eq_zero_of_le (by omega : passedOn env s ≤ passedOn env s1)]
    simp

theorem between_next {env : ServerEnv β V} {s1 s s' : Server β V} {x : ClientMsg} (hle : passedOn env s1 ≤ passedOn env s)
    (hm : announced env s <+: announced env s') (he : passedOn env s' = passedOn env s + 1) (hx : (announced env s)[passedOn env s]? = some x) :
    passedBetween env s1 s' = passedBetween env s1 s ++ [x] := by
  obtain ⟨new, hn⟩ := hm
  have hlt : passedOn env s < (announced env s).length := (List.getElem?_eq_some_iff.1 hx).1
  unfold passedBetween
  rw [he, ← hn, List.drop_append_of_le_length (by omega), List.take_append_of_le_length (by rw [List.length_drop]; omega),
    show passedOn env s + 1 - passedOn env s1 = (passedOn env s - passedOn env s1) + 1 by omega, List.take_add_one]
  congr 1
  rw [List.getElem?_drop, show passedOn env s1 + (passedOn env s - passedOn env s1) = passedOn env s by omega, hx]
  rfl

theorem write_has {c : WsClient} {piece : List ClientMsg} (h : (c.open_ = true → c.sent ++ c.queue = piece) ∧ c.sent <+: piece) :
    (c.write.open_ = true → c.write.sent ++ c.write.queue = piece) ∧ c.write.sent <+: piece := by
  obtain ⟨o, q, st⟩ := c
  unfold WsClient.write
  cases o with
  | false => exact h
  | true =>
    cases q with
    | nil => exact h
    | cons m q =>
      have h1 : st ++ (m :: q) = piece := h.1 rfl
      refine ⟨fun _ => by simpa using h1, ?_⟩
      exact ⟨q, by simpa using h1⟩

theorem steps_has {env : ServerEnv β V} (hc : ∀ v, (44 : UInt8) ∉ env.text v) {s1 : Server β V} {id : Str} : ∀ (l : List Move) {s : Server β V}, SvGood env s →
    passedOn env s1 ≤ passedOn env s → Has s id (passedBetween env s1 s) → .join id ∉ l →
    Has (s.steps env l) id (passedBetween env s1 (s.steps env l)) ∧ passedOn env s1 ≤ passedOn env (s.steps env l) ∧
      (.fail id ∉ l → (∃ c, s.clients.find? id = some c ∧ c.open_ = true) → ∃ c, (s.steps env l).clients.find? id = some c ∧ c.open_ = true)
  | [], _, _, hle, hh, _ => ⟨hh, hle, fun _ h => h⟩
  | m :: l, s, hg, hle, hh, hj => by
    have hstep := step_does hc hg m
    have hp := hg.inv.passed.1
    have hj' : m ≠ .join id ∧ .join id ∉ l := ⟨fun e => hj (by simp [e]), fun e => hj (by simp [e])⟩
    have hnext : Has (s.step env m) id (passedBetween env s1 (s.step env m)) ∧ passedOn env s1 ≤ passedOn env (s.step env m) ∧
        (m ≠ .fail id → (∃ c, s.clients.find? id = some c ∧ c.open_ = true) → ∃ c, (s.step env m).clients.find? id = some c ∧ c.open_ = true) := by
      rcases hstep.clients with ⟨he, hcl⟩ | ⟨_, he, x, hx, hcl⟩
      · rw [between_same hp hstep.more he, he]
        unfold Has
        refine ⟨?_, hle, ?_⟩
        · cases m with
          | join k =>
            have hk : id ≠ k := fun e => hj'.1 (by rw [e])
            rw [hcl, Map.find?_put_ne _ _ hk]
            exact hh
          | write k =>
            rw [hcl, find_onClient]
            split
            · rename_i e
              intro c hcc
              obtain ⟨c0, h0, rfl⟩ := Option.map_eq_some_iff.1 hcc
              exact write_has (hh c0 (by rw [e]; exact h0))
            · exact hh
          | fail k =>
            rw [hcl, find_onClient]
            split
            · rename_i e
              intro c hcc
              obtain ⟨c0, h0, rfl⟩ := Option.map_eq_some_iff.1 hcc
              exact ⟨fun h => (by cases h), (hh c0 (by rw [e]; exact h0)).2⟩
            · exact hh
          | _ => rw [hcl]; exact hh
        · intro hf hopen
          obtain ⟨c, h1, h2⟩ := hopen
          cases m with
          | join k =>
            have hk : id ≠ k := fun e => hj'.1 (by rw [e])
            rw [hcl, Map.find?_put_ne _ _ hk]
            exact ⟨c, h1, h2⟩
          | write k =>
            rw [hcl, find_onClient]
            split
            · rename_i e
              rw [← e, h1]
              refine ⟨c.write, rfl, ?_⟩
              unfold WsClient.write
              split <;> exact h2
            · exact ⟨c, h1, h2⟩
          | fail k =>
            have hk : id ≠ k := fun e => hf (by rw [e])
            rw [hcl, find_onClient, if_neg hk]
            exact ⟨c, h1, h2⟩
          | _ => rw [hcl]; exact ⟨c, h1, h2⟩
      · rw [between_next hle hstep.more he hx, he]
        refine ⟨?_, by omega, ?_⟩
        · intro c hcc
          rw [hcl, find_sent hg.sorted] at hcc
          cases h0 : s.clients.find? id with
          | none => rw [h0] at hcc; cases hcc
          | some c0 =>
            rw [h0] at hcc
            have hcc' : (if c0.open_ = true then some { c0 with queue := c0.queue ++ [x] } else none) = some c := hcc
            split at hcc'
            · rename_i ho
              cases hcc'
              obtain ⟨k1, k2⟩ := hh c0 h0
              exact ⟨fun _ => by dsimp only; rw [← List.append_assoc, k1 ho], k2.trans (List.prefix_append _ _)⟩
            · cases hcc'
        · rintro _ ⟨c, h1, h2⟩
          rw [hcl, find_sent hg.sorted, h1]
          exact ⟨{ c with queue := c.queue ++ [x] }, by simp [h2], h2⟩
    obtain ⟨n1, n2, n3⟩ := hnext
    obtain ⟨k1, k2, k3⟩ := steps_has hc l hstep.good n2 n1 hj'.2
    exact ⟨k1, k2, fun hf ho => k3 (fun e => hf (by simp [e])) (n3 (fun e => hf (by simp [e])) ho)⟩

end Served

namespace Served

theorem digit_of {c : UInt8} (h : 48 ≤ c ∧ c ≤ 57) : ∃ k, k < 10 ∧ c = UInt8.ofNat (48 + k) ∧ c.toNat - 48 = k := by
  have h1 : 48 ≤ c.toNat := UInt8.le_iff_toNat_le.1 h.1
  have h2 : c.toNat ≤ 57 := UInt8.le_iff_toNat_le.1 h.2
  refine ⟨c.toNat - 48, by omega, ?_, rfl⟩
  rw [show 48 + (c.toNat - 48) = c.toNat by omega]
  simp

theorem decimal_more : ∀ {s t : Str} {n m : Nat}, Decimal t n → digitsVal s n = some m → Decimal (t ++ s) m
  | [], t, n, m, h, hd => by
    cases hd
    rw [List.append_nil]
    exact h
  | c :: s, t, n, m, h, hd => by
    rw [digitsVal] at hd
    split at hd
    · rename_i hc
      obtain ⟨k, hk, e1, e2⟩ := digit_of hc
      rw [e2] at hd
      have := decimal_more (h.more k hk) hd
      rw [← e1, List.append_assoc] at this
      exact this
    · cases hd

theorem decimal_val {s : Str} {n : Nat} (h : Decimal s n) : digitsVal s 0 = some n := by
  induction h with
  | one k hk =>
    obtain ⟨h1, h2⟩ := digit_byte hk
    rw [digitsVal, if_pos h1, h2, digitsVal]
    simp
  | more k hk _ ih =>
    obtain ⟨h1, h2⟩ := digit_byte hk
    rw [digitsVal_append, ih]
    show digitsVal _ _ = _
    rw [digitsVal, if_pos h1, h2, digitsVal]

theorem decimal_iff {c : UInt8} {s : Str} {n : Nat} : digitsVal (c :: s) 0 = some n ↔ Decimal (c :: s) n := by
  refine ⟨fun h => ?_, decimal_val⟩
  rw [digitsVal] at h
  split at h
  · rename_i hc
    obtain ⟨k, hk, e1, e2⟩ := digit_of hc
    rw [e2, Nat.mul_zero, Nat.zero_add] at h
    have := decimal_more (.one k hk) h
    rw [← e1] at this
    exact this
  · cases h

theorem decimal_ne {s : Str} {n : Nat} (h : Decimal s n) : s ≠ [] ∧ ∀ r, s ≠ 43 :: r := by
  have := decimal_val h
  refine ⟨?_, ?_⟩
  · rintro rfl
    have hl : ∀ {s : Str} {n : Nat}, Decimal s n → s.length ≠ 0 := by
      intro s n h
      cases h <;> simp
    exact hl h rfl
  · rintro r rfl
    rw [digitsVal, if_neg (by decide)] at this
    cases this

end Served

/-- C86: what the server takes for the time in the text of an output: decimal digits below 2^64, and at most one plus sign in front of them. -/
theorem C86_number (s : Str) (t : UInt64) : parseU64 s = some t ↔ Decimal s t.toNat ∨ ∃ r, s = 43 :: r ∧ Decimal r t.toNat := by
  have key : ∀ d r, (match digitsVal (d :: r) 0 with
      | some n => if n < 18446744073709551616 then some (UInt64.ofNat n) else none
      | none => none) = some t ↔ Decimal (d :: r) t.toNat := by
    intro d r
    rw [← decimal_iff]
    cases digitsVal (d :: r) 0 with
    | none => simp
    | some n =>
      dsimp only
      split
      · rename_i hn
        rw [Option.some.injEq, Option.some.injEq]
        constructor
        · rintro rfl
          rw [UInt64.toNat_ofNat_of_lt' hn]
        · rintro rfl
          simp
      · rename_i hn
        refine ⟨fun h => (by cases h), fun h => ?_⟩
        cases h
        exact absurd t.toNat_lt hn
  unfold parseU64
  cases s with
  | nil =>
    refine ⟨fun h => (by cases h), ?_⟩
    rintro (h | ⟨r, h, _⟩)
    · exact absurd rfl (decimal_ne h).1
    · cases h
  | cons c s =>
    by_cases hc : c = 43
    · subst hc
      rw [dropPlus, if_pos rfl]
      cases s with
      | nil =>
        refine ⟨fun h => (by cases h), ?_⟩
        rintro (h | ⟨r, h, h'⟩)
        · exact absurd rfl ((decimal_ne h).2 _)
        · cases h
          exact absurd rfl (decimal_ne h').1
      | cons d r =>
        refine (key d r).trans ⟨fun h => .inr ⟨_, rfl, h⟩, ?_⟩
        rintro (h | ⟨q, h, h'⟩)
        · exact absurd rfl ((decimal_ne h).2 _)
        · cases h
          exact h'
    · rw [dropPlus, if_neg hc]
      refine (key c s).trans ⟨.inl, ?_⟩
      rintro (h | ⟨q, h, _⟩)
      · exact h
      · cases h
        exact absurd rfl hc

/-- Numbers that are read and texts that are not. -/
example : parseU64 b!"0042" = some 42 ∧ parseU64 b!"+7" = some 7 ∧ parseU64 b!"++7" = none ∧ parseU64 b!"-7" = none ∧ parseU64 [] = none ∧ parseU64 b!"+" = none ∧
    parseU64 b!"18446744073709551615" = some 18446744073709551615 ∧ parseU64 b!"18446744073709551616" = none ∧ parseU64 b!"1.5" = none := by decide +kernel

example : Decimal b!"42" 42 := .more 2 (by decide) (.one 4 (by decide))

/-- C86: in any interleaving of the tasks, a client that has joined and whose websocket has not failed gets each message that is handed on from then on, once and in the order in
which Redis published them: what was written to its websocket, followed by what waits for it. A client whose websocket has failed got a beginning of this. The texts of
values have no commas. -/
theorem C86_clients {env : ServerEnv β V} (hc : ∀ v, (44 : UInt8) ∉ env.text v) (remap : Remap) (keys : Str × Str) (r : Redis β V) (before after : List Move) (id : Str)
    (hj : .join id ∉ after) :
    let s1 := (Server.started remap keys r).steps env (before ++ [.join id])
    let s2 := s1.steps env after
    (∀ c, s2.clients.find? id = some c → (c.open_ = true → c.sent ++ c.queue = passedBetween env s1 s2) ∧ c.sent <+: passedBetween env s1 s2) ∧
      (.fail id ∉ after → ∃ c, s2.clients.find? id = some c ∧ c.open_ = true) := by
  intro s1 s2
  have hg : SvGood env s1 := steps_good hc _ (started_good remap keys r)
  have hs1 : s1 = ((Server.started remap keys r).steps env before).step env (.join id) := by
    show (Server.started remap keys r).steps env (before ++ [.join id]) = _
    simp [Server.steps]
  have hfind : s1.clients.find? id = some ⟨true, [], []⟩ := by
    rw [hs1]
    exact Map.find?_put_self ..
  have hnone : passedBetween env s1 s1 = [] := by
    unfold passedBetween
    rw [Nat.sub_self, List.take_zero]
  obtain ⟨k1, _, k3⟩ := steps_has hc (s1 := s1) (id := id) after hg (Nat.le_refl _) (fun c h => by
    rw [hfind] at h
    cases h
    rw [hnone]
    exact ⟨fun _ => rfl, List.nil_prefix⟩) hj
  exact ⟨k1, fun hf => k3 hf ⟨_, hfind, rfl⟩⟩

/-- C86: the task that serves the clients never fails, what waits for it is the end of what was announced, and the announced messages are handed on when their turn comes: a step of this
task hands on one more unless there is none. -/
theorem C86_tasks {env : ServerEnv β V} (hc : ∀ v, (44 : UInt8) ∉ env.text v) (remap : Remap) (keys : Str × Str) (r : Redis β V) (l : List Move) :
    let s := (Server.started remap keys r).steps env l
    s.sending = true ∧ passedOn env s + s.queue.length = (announced env s).length ∧
      passedOn env (s.step env .deliver) = if s.queue = [] then passedOn env s else passedOn env s + 1 := by
  intro s
  have hg : SvGood env s := steps_good hc l (started_good remap keys r)
  obtain ⟨p1, p2⟩ := hg.inv.passed
  have hl := congrArg List.length p2
  rw [List.length_map, List.length_drop] at hl
  refine ⟨hg.inv.sending, by omega, ?_⟩
  rcases (step_does hc hg .deliver).clients with ⟨he, _⟩ | ⟨_, he, x, hx, _⟩
  · rw [he]
    split
    · rfl
    · rename_i hq
      exfalso
      have hs : (s.step env .deliver).queue = s.queue.tail := by
        unfold Server.step
        dsimp only
        rw [if_pos hg.inv.sending]
        cases hq' : s.queue with
        | nil => exact absurd hq' hq
        | cons w q =>
          dsimp only
          split
          · rfl
          · cases clientMsg w <;> rfl
      have ha : announced env (s.step env .deliver) = announced env s := by
        refine announced_eq ?_ ?_ ?_ <;>
        · unfold Server.step
          dsimp only
          rw [if_pos hg.inv.sending]
          cases s.queue with
          | nil => rfl
          | cons w q =>
            dsimp only
            split
            · rfl
            · cases clientMsg w <;> rfl
      unfold passedOn at he
      rw [ha, hs, List.length_tail] at he
      have : 0 < s.queue.length := List.length_pos_iff.2 hq
      omega
  · have hlt := (List.getElem?_eq_some_iff.1 hx).1
    rw [he, if_neg]
    intro hq
    rw [hq] at hl
    simp at hl
    omega

/-! ## From the input to the clients -/

/-- The pipeline of the server is the only one that begins at its key, and the series there has these samples. -/
structure Serving (env : ServerEnv β V) (output pipe : Str) (lib : β) (l : List (UInt64 × V)) (s : Server β V) : Prop where
  up : s.up = true
  reading : s.reading = true
  channel : s.channel = output ++ b!":ps"
  apart : output ≠ s.key
  db : SeriesSorted s.redis.db
  series : ∃ last, s.redis.db.find? s.key = some (.series last l)
  registry : ∃ g, s.redis.registry = some g ∧ RsSteady g ∧ g.lib = lib ∧ ∀ o id, pipeBetween g s.key o = some id ↔ o = output ∧ id = pipe

theorem serving_input {env : ServerEnv β V} {output pipe : Str} {lib : β} {l : List (UInt64 × V)} {s : Server β V} (h : Serving env output pipe lib l s)
    {n : Nat} (hsub : s.since = some n) (hn : n ≤ s.redis.published.length) {now : UInt64} {payload : Str} {t : UInt64} {v : V}
    (hin : readInput env s.remap now payload = some (t, v)) (hw : env.redis.wire v = some v) (hnew : ∀ x ∈ l, x.1 < t)
    (hres : (env.redis.bridge.receive pipe ⟨t, [v]⟩ lib).1 = [] ∨ ∃ x, First (env.redis.bridge.receive pipe ⟨t, [v]⟩ lib).1 x ∧ env.redis.wire x.2 = some x.2) :
    Serving env output pipe (env.redis.bridge.receive pipe ⟨t, [v]⟩ lib).2 (l ++ [(t, v)]) (s.step env (.input now payload)) ∧
      (s.step env (.input now payload)).since = some n ∧ n ≤ (s.step env (.input now payload)).redis.published.length ∧
      (s.step env (.input now payload)).remap = s.remap ∧
      ((env.redis.bridge.receive pipe ⟨t, [v]⟩ lib).1 = [] → announced env (s.step env (.input now payload)) = announced env s) ∧
      ∀ x, First (env.redis.bridge.receive pipe ⟨t, [v]⟩ lib).1 x →
        announced env (s.step env (.input now payload)) = announced env s ++ [⟨x.1, [env.text x.2]⟩] := by
  obtain ⟨redis, up, key, channel, remap, reading, since, queue, sending, clients⟩ := s
  obtain ⟨db, pub, reg⟩ := redis
  obtain ⟨h1, h2, h3, h4, h5, ⟨last, h6⟩, g, h7, h8, h9, h10⟩ := h
  dsimp only at *
  subst h1 h2 h3 h7 hsub h9
  have hturns : (turns env.redis.bridge ⟨t, [v]⟩ [(output, pipe)] g.lib) =
      ([(output, (env.redis.bridge.receive pipe ⟨t, [v]⟩ g.lib).1)], (env.redis.bridge.receive pipe ⟨t, [v]⟩ g.lib).2) := rfl
  obtain ⟨r', a1, a2, a3, a4, a5, ps, a6, a7⟩ := C80_added_partial (b := env.redis.bridge) (wire := env.redis.wire) (pub := pub) h8 h5 hw h6 hnew
    (ids := [(output, pipe)]) (by simp) (fun o id => by rw [h10]; simp [Prod.ext_iff]) (by
      intro e he
      rw [hturns] at he
      simp only [List.mem_singleton] at he
      subst he
      exact hres)
  rw [hturns] at a2 a3 a4 a5 a7
  have hstep : Server.step env (.input now payload) ⟨⟨db, pub, some g⟩, true, key, output ++ b!":ps", remap, true, some n, queue, sending, clients⟩ =
      Server.heard env r' ⟨⟨db, pub, some g⟩, true, key, output ++ b!":ps", remap, true, some n, queue, sending, clients⟩ := by
    unfold Server.step
    simp only [if_true, hin, a1]
  rw [hstep]
  have hann : ∀ (q : List (List Str)) , announced env ⟨r', true, key, output ++ b!":ps", remap, true, some n, q, sending, clients⟩ =
      announced env ⟨⟨db, pub, some g⟩, true, key, output ++ b!":ps", remap, true, some n, queue, sending, clients⟩ ++
        (ps.filter fun p => p.1 = output ++ b!":ps").map fun p => ⟨p.2.1, [env.text p.2.2]⟩ := by
    intro q
    unfold announced
    dsimp only
    rw [a6, List.drop_append_of_le_length hn, List.filter_append, List.map_append]
  have hkey : r'.db.find? key = some (.series last (l ++ [(t, v)])) := a4 fun m ms hm => by
    simp only [List.mem_singleton, Prod.mk.injEq] at hm
    exact h4 hm.1.symm
  have hsorted : (l ++ [(t, v)]).Pairwise fun y z => y.1 < z.1 := by
    refine List.pairwise_append.2 ⟨h5 key last l h6, by simp, fun x hx y hy => ?_⟩
    cases List.mem_singleton.1 hy
    exact hnew x hx
  have hdb : SeriesSorted r'.db := by
    intro k last' l' hk
    by_cases hkk : k = key
    · subst hkk
      rw [hkey] at hk
      cases hk
      exact hsorted
    · by_cases hko : k = output
      · subst hko
        rcases hres with hnil | ⟨x, hx, _⟩
        · rw [a3 k hkk (fun m ms hm => by
            rw [hnil] at hm
            simp at hm)] at hk
          exact h5 k last' l' hk
        · have := a5 k _ x (by simp) hx
          rw [if_neg hkk] at this
          exact stored_keeps this (h5 k) last' l' hk
      · rw [a3 k hkk (fun m ms hm => by
          simp only [List.mem_singleton, Prod.mk.injEq] at hm
          exact hko hm.1)] at hk
        exact h5 k last' l' hk
  refine ⟨⟨rfl, rfl, rfl, h4, hdb, ⟨last, hkey⟩, _, a2, ⟨h8.1, h8.2, h8.3⟩, rfl, h10⟩, rfl, ?_, rfl, ?_, ?_⟩
  · show n ≤ r'.published.length
    rw [a6, List.length_append]
    omega
  · intro hnil
    rw [hnil] at a7
    have : ps = [] := by cases a7; rfl
    unfold Server.heard
    dsimp only
    rw [hann, this]
    simp
  · intro x hx
    cases hx' : (env.redis.bridge.receive pipe ⟨t, [v]⟩ g.lib).1 with
    | nil => rw [hx'] at hx; cases hx
    | cons m ms =>
      have hps : ps = [(output ++ b!":ps", x)] := by
        rw [hx'] at a7 hx
        simp only [List.filter_cons, List.isEmpty_cons, Bool.not_false, if_true, List.filter_nil] at a7
        cases a7 with
        | cons hp ht =>
          cases ht
          obtain ⟨p1, p2⟩ := hp
          rename_i p
          obtain ⟨pk, pv⟩ := p
          dsimp only at p1 p2
          subst p1
          cases p2
          cases hx
          rfl
      unfold Server.heard
      dsimp only
      rw [hann, hps]
      simp

theorem serving_other {env : ServerEnv β V} {output pipe : Str} {lib : β} {l : List (UInt64 × V)} {s : Server β V} (h : Serving env output pipe lib l s)
    {n : Nat} (hsub : s.since = some n) {m : Move} (hm : ∀ now payload, m ≠ .input now payload) :
    Serving env output pipe lib l (s.step env m) ∧ (s.step env m).since = some n ∧ (s.step env m).redis = s.redis ∧ (s.step env m).remap = s.remap ∧
      announced env (s.step env m) = announced env s := by
  have key : ∀ s' : Server β V, s'.redis = s.redis → s'.up = s.up → s'.key = s.key → s'.channel = s.channel → s'.remap = s.remap → s'.reading = s.reading → s'.since = s.since →
      Serving env output pipe lib l s' ∧ s'.since = some n ∧ s'.redis = s.redis ∧ s'.remap = s.remap ∧ announced env s' = announced env s := by
    intro s' e1 e2 e3 e4 e5 e6 e7
    refine ⟨⟨e2.trans h.up, e6.trans h.reading, e4.trans h.channel, by rw [e3]; exact h.apart, by rw [e1]; exact h.db, by rw [e1, e3]; exact h.series,
      by rw [e1, e3]; exact h.registry⟩, e7.trans hsub, e1, e5, announced_eq e7 e1 e4⟩
  cases m with
  | input now payload => exact absurd rfl (hm now payload)
  | subscribe =>
    have : s.step env .subscribe = s := by
      unfold Server.step
      simp only [h.up, if_true, hsub]
    rw [this]
    exact key s rfl rfl rfl rfl rfl rfl rfl
  | deliver =>
    unfold Server.step
    dsimp only
    split
    · split
      · exact key _ rfl rfl rfl rfl rfl rfl rfl
      · split
        · exact key _ rfl rfl rfl rfl rfl rfl rfl
        · split
          · exact key _ rfl rfl rfl rfl rfl rfl rfl
          · exact key _ rfl rfl rfl rfl rfl rfl rfl
    · exact key _ rfl rfl rfl rfl rfl rfl rfl
  | join id => exact key _ rfl rfl rfl rfl rfl rfl rfl
  | write id => exact key _ rfl rfl rfl rfl rfl rfl rfl
  | fail id => exact key _ rfl rfl rfl rfl rfl rfl rfl

/-- C86: while the server is subscribed, each message of the input that it can read goes to the pipeline of the program as a sample, in order, and the first value of each reply is announced to the
clients, whatever the other tasks do meanwhile. The times have to increase, and Redis has to take the values. -/
theorem C86_through {env : ServerEnv β V} {output pipe : Str} : ∀ (moves : List Move) {lib : β} {l : List (UInt64 × V)} {s : Server β V}, Serving env output pipe lib l s →
    ∀ {n : Nat}, s.since = some n → n ≤ s.redis.published.length → ∀ {samples xs : List (UInt64 × V)},
    sampled env s.remap moves = samples.map some → (l ++ samples).Pairwise (fun x y => x.1 < y.1) → (∀ x ∈ samples, env.redis.wire x.2 = some x.2) →
    Firsts (replied env.redis.bridge pipe samples lib).1 xs → (∀ x ∈ xs, env.redis.wire x.2 = some x.2) →
    Serving env output pipe (replied env.redis.bridge pipe samples lib).2 (l ++ samples) (s.steps env moves) ∧
      announced env (s.steps env moves) = announced env s ++ xs.map fun x => ⟨x.1, [env.text x.2]⟩
  | [], lib, l, s, h, n, hs, hn, samples, xs, hsm, hp, hw, hf, hx => by
    cases samples with
    | cons x samples => cases hsm
    | nil =>
      have : xs = [] := by cases hf; rfl
      subst this
      simp only [List.append_nil, List.map_nil]
      exact ⟨h, rfl⟩
  | m :: moves, lib, l, s, h, n, hs, hn, samples, xs, hsm, hp, hw, hf, hx => by
    show Serving _ _ _ _ _ ((s.step env m).steps env moves) ∧ announced env ((s.step env m).steps env moves) = _
    by_cases hm : ∀ now payload, m ≠ .input now payload
    · obtain ⟨k1, k2, k3, k4, k5⟩ := serving_other h hs hm
      have hsm' : sampled env (s.step env m).remap moves = samples.map some := by
        rw [k4]
        cases m with
        | input now payload => exact absurd rfl (hm now payload)
        | _ => exact hsm
      have := C86_through moves k1 k2 (by rw [k3]; exact hn) hsm' hp hw hf hx
      rw [k5] at this
      exact this
    · have hm' : ∃ now payload, m = .input now payload := by
        by_contra hne
        exact hm fun now payload e => hne ⟨now, payload, e⟩
      obtain ⟨now, payload, rfl⟩ := hm'
      cases samples with
      | nil => cases hsm
      | cons x samples =>
        obtain ⟨t, v⟩ := x
        obtain ⟨hin, hsm'⟩ := List.cons.inj (show readInput env s.remap now payload :: sampled env s.remap moves = some (t, v) :: samples.map some from hsm)
        have hnew : ∀ y ∈ l, y.1 < t := fun y hy => (List.pairwise_append.1 hp).2.2 y hy (t, v) (by simp)
        have hp' : ((l ++ [(t, v)]) ++ samples).Pairwise (fun x y => x.1 < y.1) := by simpa using hp
        have hf' : Firsts ((env.redis.bridge.receive pipe ⟨t, [v]⟩ lib).1 :: (replied env.redis.bridge pipe samples (env.redis.bridge.receive pipe ⟨t, [v]⟩ lib).2).1) xs := hf
        have hrep : (env.redis.bridge.receive pipe ⟨t, [v]⟩ lib).1 = [] ∧ Firsts (replied env.redis.bridge pipe samples (env.redis.bridge.receive pipe ⟨t, [v]⟩ lib).2).1 xs ∨
            ∃ x xs', xs = x :: xs' ∧ First (env.redis.bridge.receive pipe ⟨t, [v]⟩ lib).1 x ∧
              Firsts (replied env.redis.bridge pipe samples (env.redis.bridge.receive pipe ⟨t, [v]⟩ lib).2).1 xs' := by
          generalize (env.redis.bridge.receive pipe ⟨t, [v]⟩ lib).1 = rep at hf'
          generalize (replied env.redis.bridge pipe samples (env.redis.bridge.receive pipe ⟨t, [v]⟩ lib).2).1 = reps at hf'
          cases hf' with
          | silent hf => exact .inl ⟨rfl, hf⟩
          | cons h1 h2 => exact .inr ⟨_, _, rfl, h1, h2⟩
        have hres : (env.redis.bridge.receive pipe ⟨t, [v]⟩ lib).1 = [] ∨
            ∃ x, First (env.redis.bridge.receive pipe ⟨t, [v]⟩ lib).1 x ∧ env.redis.wire x.2 = some x.2 := by
          rcases hrep with ⟨h1, _⟩ | ⟨x, xs', rfl, h1, _⟩
          · exact .inl h1
          · exact .inr ⟨x, h1, hx x (by simp)⟩
        obtain ⟨k1, k2, k3, k4, k5, k6⟩ := serving_input h hs hn hin (hw (t, v) (by simp)) hnew hres
        have hgo := fun {xs} hf hx => C86_through moves k1 k2 k3 (samples := samples) (xs := xs) (by rw [k4]; exact hsm') hp' (fun x hx => hw x (by simp [hx])) hf hx
        rw [show l ++ (t, v) :: samples = (l ++ [(t, v)]) ++ samples by simp]
        rcases hrep with ⟨h1, h2⟩ | ⟨x, xs', rfl, h1, h2⟩
        · obtain ⟨j1, j2⟩ := hgo h2 hx
          exact ⟨j1, by rw [j2, k5 h1]⟩
        · obtain ⟨j1, j2⟩ := hgo h2 fun y hy => hx y (by simp [hy])
          exact ⟨j1, by rw [j2, k6 x h1]; simp⟩

/-- C86: `start` creates the keys and the pipeline of the program, which is then alone at its input; the server serves from there. The random id must not be in use, and the program must be one that the
module takes. -/
theorem C86_start {env : ServerEnv β V} {lib lib1 : β} {fresh id program : Str} {r : Redis β V} (hdb : SeriesSorted r.db) (hi : r.db.find? (b!"p:i:" ++ id) = none)
    (hp : r.db.find? (b!"p:" ++ id) = none) {j : Json V} (hj : env.redis.parse program = .ok j) (ha : redisSchema.accepts j = true)
    (hs : RsSteady (registryOf lib r)) (hc : env.redis.bridge.create fresh program (registryOf lib r).lib = ([], lib1))
    (h1 : ∀ o, pipeBetween (registryOf lib r) (b!"p:i:" ++ id) o = none) (h2 : ∀ o, pipeBetween (registryOf lib r) (b!"p:o:" ++ id) o = none) (remap : Remap) :
    ∃ r', pushStart env lib fresh id program r = .ok (b!"p:i:" ++ id, b!"p:o:" ++ id ++ b!":ps") r' ∧ r'.published = r.published ∧
      Serving env (b!"p:o:" ++ id) fresh lib1 [] (Server.started remap (b!"p:i:" ++ id, b!"p:o:" ++ id ++ b!":ps") r') := by
  obtain ⟨db, pub, reg⟩ := r
  have hne1 : b!"p:" ++ id ≠ b!"p:i:" ++ id := fun e => by
    have := congrArg List.length e
    simp at this
  have hne2 : b!"p:i:" ++ id ≠ b!"p:o:" ++ id := fun e => by
    have := List.append_cancel_right e
    revert this
    decide
  have hne3 : b!"p:" ++ id ≠ b!"p:o:" ++ id := fun e => by
    have := congrArg List.length e
    simp at this
  have hreg : ∀ db', registryOf lib (⟨db', pub, reg⟩ : Redis β V) = registryOf lib ⟨db, pub, reg⟩ := fun _ => rfl
  obtain ⟨r', g, S, e1, e2, e3, e4, e5, e6, e7, e8, e9⟩ := C79_run (env := env.redis) (lib := lib) (lib1 := lib1) (fresh := fresh) (program := b!"p:" ++ id) (input := b!"p:i:" ++ id)
    (output := b!"p:o:" ++ id) (r := ⟨(db.put (b!"p:i:" ++ id) (.series true [])).put (b!"p:" ++ id) (.json program), pub, reg⟩) (samples := []) (xs := [])
    ⟨by rw [hreg]; exact hs, ⟨program, j, by unfold jsonGet; simp only [Map.find?_put_self], hj, ha, by rw [hreg]; exact hc⟩,
      by unfold tsRange; simp only [Map.find?_put_ne _ _ hne1.symm, Map.find?_put_self], hne2, by rw [hreg]; exact h1, by rw [hreg]; exact h2⟩ .nil
    (fun x hx => (by cases hx)) true (fun h => (by cases h))
  refine ⟨r', ?_, e2, ?_⟩
  · unfold pushStart tsCreate
    dsimp only at hi hp
    simp only [hi, hj, Map.find?_put_ne _ _ hne1, hp, (C79_arguments env.redis lib fresh (b!"p:" ++ id) (b!"p:i:" ++ id) (b!"p:o:" ++ id) _).2.2.2.1, e1]
  · refine ⟨rfl, rfl, rfl, hne2.symm, ?_, ⟨true, ?_⟩, g, e6, e7, by simpa [replied] using e9, ?_⟩
    · intro k last l hk
      by_cases hko : k = b!"p:o:" ++ id
      · subst hko
        have hk' : some (Entry.series true S) = some (.series last l) := e3.symm.trans hk
        cases hk'
        exact e4.sorted
      · have hk' := (e5 k hko).symm.trans hk
        dsimp only at hk'
        rw [Map.find?_put] at hk'
        split at hk'
        · cases hk'
        · rw [Map.find?_put] at hk'
          split at hk'
          · cases hk'
            exact .nil
          · exact hdb k last l hk'
    · show r'.db.find? (b!"p:i:" ++ id) = _
      rw [e5 _ hne2]
      simp only [Map.find?_put_ne _ _ hne1.symm, Map.find?_put_self]
    · intro o k
      show pipeBetween g (b!"p:i:" ++ id) o = _ ↔ _
      rw [e8]
      by_cases ho : o = b!"p:o:" ++ id
      · rw [if_pos ⟨rfl, rfl, ho⟩]
        simp [ho, eq_comm]
      · rw [if_neg (fun h => ho h.2.2), hreg, h1 o]
        exact ⟨fun e => (by cases e), fun e => absurd e.1 ho⟩

/-! ## What the input may be -/

theorem stopped_stays {env : ServerEnv β V} : ∀ (moves : List Move) {s : Server β V}, s.reading = false → (s.steps env moves).reading = false ∧ (s.steps env moves).redis = s.redis
  | [], _, h => ⟨h, rfl⟩
  | m :: moves, s, h => by
    have hstep : (s.step env m).reading = false ∧ (s.step env m).redis = s.redis := by
      cases m with
      | input now payload =>
        unfold Server.step
        simp only [h]
        exact ⟨h, rfl⟩
      | subscribe =>
        unfold Server.step
        dsimp only
        split
        · split <;> exact ⟨h, rfl⟩
        · exact ⟨h, rfl⟩
      | deliver =>
        unfold Server.step
        dsimp only
        split
        · split
          · exact ⟨h, rfl⟩
          · split
            · exact ⟨h, rfl⟩
            · split <;> exact ⟨h, rfl⟩
        · exact ⟨h, rfl⟩
      | join id => exact ⟨h, rfl⟩
      | write id => exact ⟨h, rfl⟩
      | fail id => exact ⟨h, rfl⟩
    obtain ⟨k1, k2⟩ := stopped_stays moves hstep.1
    exact ⟨k1, k2.trans hstep.2⟩

theorem stopped {env : ServerEnv β V} {s : Server β V} {payload : Str} {now : UInt64} (h : readInput env s.remap now payload = none) (now' : UInt64 := now) (moves : List Move)
    (hn : now' = now := by rfl) : (s.steps env (.input now' payload :: moves)).reading = false ∧ (s.steps env (.input now' payload :: moves)).redis = s.redis := by
  subst hn
  have hstep : (s.step env (.input now' payload)).reading = false ∧ (s.step env (.input now' payload)).redis = s.redis := by
    unfold Server.step
    dsimp only
    cases hr : s.reading with
    | false => exact ⟨hr, rfl⟩
    | true => rw [if_pos rfl, h]; exact ⟨rfl, rfl⟩
  obtain ⟨k1, k2⟩ := stopped_stays moves hstep.1
  exact ⟨k1, k2.trans hstep.2⟩

/-- C87: for a message with a timestamp that is a number and values that are texts of numbers, where the mapping says, the first value is sent to Redis with the timestamp.

Missing: values that are numbers, messages without one of the members, and what the comment on the mapping says about a missing timestamp: C87_violated_number, C87_violated_time, C87_violated_missing
and C87_violated_default. -/
theorem C87_input_partial {env : ServerEnv β V} {remap : Remap} {payload : Str} {t : UInt64} {v : V} {vs : List V} (h : InputOf env remap payload t (v :: vs)) (now : UInt64) :
    readInput env remap now payload = some (t, v) := by
  obtain ⟨⟨mapping, h1, rest, h2⟩, h3⟩ := h
  have hvals : ∀ {ms : List Str} {vs : List V}, List.Forall₂ (fun mapping v => ∃ s rest, env.find mapping payload = some (.str s :: rest) ∧ env.float s = some v) ms vs →
      ms.mapM (readValue env payload) = some (vs.map some) := by
    intro ms vs h
    induction h with
    | nil => rfl
    | cons hv _ ih =>
      obtain ⟨s, rest, f1, f2⟩ := hv
      rw [List.mapM_cons, ih]
      unfold readValue
      simp only [f1, f2]
      rfl
  unfold readInput readTime
  simp only [h1, h2, asU64, hvals h3, List.map_cons]

/-- C87 is violated: a message whose first value is a number, not a text, ends the task that reads the input: no later message is sent to Redis. -/
theorem C87_violated_number {env : ServerEnv β V} {s : Server β V} {mapping : Str} {more : List Str} (hm : s.remap.values = mapping :: more) {payload : Str} {j : Json V}
    {rest : List (Json V)} (hf : env.find mapping payload = some (j :: rest)) (hj : ∀ x, j ≠ .str x) (now : UInt64) (moves : List Move) :
    let s' := s.steps env (.input now payload :: moves)
    s'.reading = false ∧ s'.redis = s.redis := by
  have hread : readInput env s.remap now payload = none := by
    have hv : readValue env payload mapping = some none := by
      unfold readValue
      rw [hf]
      cases j with
      | str x => exact absurd rfl (hj x)
      | _ => rfl
    unfold readInput
    cases readTime env s.remap now payload with
    | none => rfl
    | some t =>
      dsimp only
      rw [hm, List.mapM_cons, hv]
      cases more.mapM (readValue env payload) <;> rfl
  exact stopped hread now moves

/-- C87 is violated: so does a message in which one of the paths leads to nothing. -/
theorem C87_violated_missing {env : ServerEnv β V} {s : Server β V} {mapping : Str} (hm : mapping ∈ s.remap.values) {payload : Str} (hf : env.find mapping payload = none)
    (now : UInt64) (moves : List Move) :
    let s' := s.steps env (.input now payload :: moves)
    s'.reading = false ∧ s'.redis = s.redis := by
  have hread : readInput env s.remap now payload = none := by
    have hv : readValue env payload mapping = none := by
      unfold readValue
      rw [hf]
    have hall : ∀ {ms : List Str}, mapping ∈ ms → ms.mapM (readValue env payload) = none := by
      intro ms hmem
      induction ms with
      | nil => cases hmem
      | cons a ms ih =>
        rw [List.mapM_cons]
        rcases List.mem_cons.1 hmem with rfl | hmem
        · rw [hv]; rfl
        · rw [ih hmem]
          cases readValue env payload a <;> rfl
    unfold readInput
    cases readTime env s.remap now payload with
    | none => rfl
    | some t =>
      dsimp only
      rw [hall hm]
  exact stopped hread now moves

/-- C87 is violated: so does a timestamp that is a number but not a natural one below 2^64: a negative one, one that is too large, or one with a fraction or an exponent. -/
theorem C87_violated_time {env : ServerEnv β V} {s : Server β V} {mapping : Str} (hm : s.remap.timestamp = some mapping) {payload : Str} {j : Json V} {rest : List (Json V)}
    (hf : env.find mapping payload = some (j :: rest)) (hj : (∃ i : Int, j = .int i ∧ (i < 0 ∨ 2 ^ 64 ≤ i)) ∨ ∃ v, j = .float v) (now : UInt64) (moves : List Move) :
    let s' := s.steps env (.input now payload :: moves)
    s'.reading = false ∧ s'.redis = s.redis := by
  have hread : readInput env s.remap now payload = none := by
    have ht : readTime env s.remap now payload = none := by
      unfold readTime
      simp only [hm, hf]
      rcases hj with ⟨i, rfl, hi⟩ | ⟨v, rfl⟩
      · unfold asU64
        exact if_neg (by omega)
      · rfl
    unfold readInput
    rw [ht]
  exact stopped hread now moves

/-- C87 is violated: the comment on the mapping of the timestamp says that the time of arrival is used when it is not set. When it is not set the default is used, and a message without a timestamp ends
the task; only an explicit null has the effect. -/
theorem C87_violated_default {env : ServerEnv β V} {payload : Str} (hf : env.find b!"$.timestamp" payload = none) (now : UInt64) (values : Option (List Str)) :
    readInput env (remapOf none values) now payload = none ∧ ∀ v : V, ∀ mapping more, values = some (mapping :: more) → (∃ vs, (mapping :: more).mapM (readValue env payload) = some (some v :: vs)) →
      readInput env (remapOf (some none) values) now payload = some (now, v) := by
  constructor
  · unfold readInput readTime remapOf
    simp only [hf]
  · rintro v mapping more rfl ⟨vs, hvs⟩
    unfold readInput readTime remapOf
    simp only [hvs]

/-! ## A server -/

/-- Messages of two bytes, the time and the value as a text, or of three, the time and the value as a number. -/
def demoFind (mapping payload : Str) : Option (List (Json Nat)) :=
  match payload with
  | [t, v] => if mapping = b!"$.timestamp" then some [.uint t.toUInt64] else if mapping = b!"$.value" then some [.str [v]] else none
  | [t, v, _] => if mapping = b!"$.timestamp" then some [.uint t.toUInt64] else if mapping = b!"$.value" then some [.uint v.toUInt64] else none
  | [v] => if mapping = b!"$.value" then some [.str [v]] else none
  | [t, v, _, _] => if mapping = b!"$.timestamp" then some [.int (- (t.toNat : Int))] else if mapping = b!"$.value" then some [.str [v]] else none
  | _ => none

/-- Its values are single bytes. -/
def demoWs : ServerEnv (Map Nat) Nat := ⟨demoEnv countingLib, demoFind, fun s => match s with
  | [c] => some c.toNat
  | _ => none, toStr⟩

/-- The server after the start. -/
def demoUp : Server (Map Nat) Nat := Server.started (remapOf none none) (b!"p:i:1", b!"p:o:1:ps") (pushStart demoWs [] b!"x" b!"1" b!"{}" ⟨[], [], none⟩).state

/-- What is left of a state for looking at it. -/
def wsSeen (id : Str) (s : Server (Map Nat) Nat) : Bool × Nat × List ClientMsg × Option WsClient := (s.reading, s.queue.length, announced demoWs s, s.clients.find? id)

/-- The start gives a state as in C86_through. -/
example : Serving demoWs b!"p:o:1" b!"x" [(b!"x", 0)] [] demoUp := by
  obtain ⟨r', h1, _, h3⟩ := C86_start (env := demoWs) (lib := []) (lib1 := [(b!"x", 0)]) (fresh := b!"x") (id := b!"1") (program := b!"{}") (r := ⟨[], [], none⟩) (j := redisDemo)
    (fun k last l h => (by cases h)) rfl rfl rfl (by decide +kernel) ⟨rfl, .nil, fun _ _ h => (by cases h)⟩ rfl (fun o => rfl) (fun o => rfl) (remapOf none none)
  have : (pushStart demoWs [] b!"x" b!"1" b!"{}" ⟨[], [], none⟩).state = r' := by rw [h1]; rfl
  unfold demoUp
  rw [this]
  exact h3

/-- A client that comes after the first message gets the second and the third; the fourth waits. -/
example : wsSeen b!"c" (demoUp.steps demoWs [.subscribe, .input 0 [1, 10], .deliver, .join b!"c", .input 0 [2, 20], .deliver, .input 0 [5, 30], .write b!"c", .deliver, .input 0 [7, 40]]) =
    (true, 1, [⟨1, [b!"1"]⟩, ⟨2, [b!"2"]⟩, ⟨5, [b!"3"]⟩, ⟨7, [b!"4"]⟩], some ⟨true, [⟨5, [b!"3"]⟩], [⟨2, [b!"2"]⟩]⟩) := by decide +kernel

/-- The samples of these moves, and what the pipeline replies to them. -/
example : sampled demoWs (remapOf none none) [.input 0 [1, 10], .deliver, .join b!"c", .input 0 [2, 20]] = [(1, 10), (2, 20)].map some ∧
    Firsts (replied countingLib b!"x" [(1, 10), (2, 20)] [(b!"x", 0)]).1 [(1, 1), (2, 2)] := by
  refine ⟨rfl, ?_⟩
  exact .cons (.mk 1 1 [] []) (.cons (.mk 2 2 [] []) .nil)

/-- The texts of its values have no comma. -/
example (v : Nat) : (44 : UInt8) ∉ demoWs.text v := digits_clean (m := v) (n := 0) (digits_toStr v)

example : InputOf demoWs (remapOf none none) [2, 20] 2 [20] := ⟨⟨_, rfl, _, rfl⟩, .cons ⟨[20], [], rfl, rfl⟩ .nil⟩

/-- C86 is violated: the server reads the input while it is not yet subscribed to the output; what the pipeline replies meanwhile reaches no client, even one that was there from the start. -/
theorem C86_violated_early : wsSeen b!"c" (demoUp.steps demoWs [.join b!"c", .input 0 [1, 10], .subscribe, .deliver, .write b!"c", .input 0 [2, 20], .deliver, .write b!"c"]) =
    (true, 0, [⟨2, [b!"2"]⟩], some ⟨true, [], [⟨2, [b!"2"]⟩]⟩) ∧
    wsSeen b!"c" (demoUp.steps demoWs [.join b!"c", .subscribe, .input 0 [1, 10], .deliver, .write b!"c", .input 0 [2, 20], .deliver, .write b!"c"]) =
    (true, 0, [⟨1, [b!"1"]⟩, ⟨2, [b!"2"]⟩], some ⟨true, [], [⟨1, [b!"1"]⟩, ⟨2, [b!"2"]⟩]⟩) := by
  constructor
  · decide +kernel
  · decide +kernel

/-- A value that is a number, a negative timestamp and a message without a timestamp end the reading. -/
example : wsSeen b!"c" (demoUp.steps demoWs [.subscribe, .input 0 [1, 10], .input 0 [2, 20, 0, 0], .input 0 [3, 30]]) = (false, 1, [⟨1, [b!"1"]⟩], none) ∧
    wsSeen b!"c" (demoUp.steps demoWs [.subscribe, .input 0 [1, 10], .input 0 [2, 20, 0], .input 0 [3, 30]]) = (false, 1, [⟨1, [b!"1"]⟩], none) ∧
    wsSeen b!"c" (demoUp.steps demoWs [.subscribe, .input 0 [1, 10], .input 9 [20], .input 0 [3, 30]]) = (false, 1, [⟨1, [b!"1"]⟩], none) ∧
    readInput demoWs (remapOf (some none) none) 9 [20] = some (9, 20) := by
  refine ⟨?_, ?_, ?_, rfl⟩
  · decide +kernel
  · decide +kernel
  · decide +kernel

end Rtbot
