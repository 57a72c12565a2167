import Verif.Lemmas.FlowOrder
import Verif.Props.Order
import Verif.Props.Ports
import Verif.Props.Terminate

/-! # C82: times increase along a whole program

Calls may fail (in the middle of the propagation as well); the caller goes on with the same program. -/

namespace Rtbot
variable {V : Type} [Num V]
open Spec Flow FlowOrder

theorem order_connected {o : Op V} (hc : Connected o) {as : List (Act V)} (hin : InOrder o as) (hk : OrderCond o.kind as) (q : Str) :
    Increasing (collected q (results o as)) := by
  obtain ⟨o0, outs, hb, rfl⟩ := hc
  have h1 := results_wired outs as o0
  unfold wired at h1
  rw [h1]
  exact C52_order_partial hb as hin hk q

/-- C82, with what some operators need for it (`OrderCond`, see C52, for the calls made on them): in a program without cycles in which no port is reached by two connections and the
entry operator by none, if the times of the messages given for each port of the entry operator increase along a sequence of calls (successful or not), then the times of what each
operator emits on each port increase along all these calls, and so do the times listed for an operator with an id of its own in their reports. -/
theorem C82_order_cond {P : Prog V} (hops : ∀ b o, P.st.heap b = some o → Connected o) (hac : Acyclic P.st.heap) {x : Nat} {ox : Op V}
    (hx : P.ops.find? P.entry = some x) (hox : P.st.heap x = some ox) (hone : OneInto P.st.heap x) (fuel : Nat) (cs : List (Feed V))
    (hin : ∀ p, ox.core.dataIn.has p = true → Increasing (givenTo (ox.core.dataIn.length == 1) p cs))
    (hcond : ∀ evs, (afterCalls fuel P cs).st.log = P.st.log ++ evs → ∀ b o, P.st.heap b = some o → OrderCond o.kind (actsOf b evs)) :
    (∃ evs, (afterCalls fuel P cs).st.log = P.st.log ++ evs ∧ ∀ b p, Increasing (emittedBy b p evs)) ∧
    (FilterOnce P → ∀ b o, P.st.heap b = some o → OnlyId P.st.heap b o.core.id → ∀ p, Increasing (listedIn (replies fuel P cs) o.core.id p)) := by
  have hf := fine_start hops
  obtain ⟨_, _, evs, h3, hF, h5, h6⟩ := calls_rel hac hone fuel cs P hx hf
  have hincr : ∀ b, ∀ p, Increasing (emittedBy b p evs) := by
    refine upstream_induct hac (evs := evs) (fun b hup p => ?_) fun b hb p => ?_
    · cases ho : P.st.heap b with
      | none =>
        have : emittedBy b p evs = [] := by
          unfold emittedBy
          rw [List.filterMap_eq_nil_iff]
          intro e he
          cases e with
          | emit d a id p' m =>
            obtain ⟨_, o, h, _⟩ := hF.honest _ _ _ _ _ he
            dsimp only
            rw [if_neg]
            rintro ⟨rfl, _⟩
            rw [ho] at h; cases h
          | recv => rfl
          | exec => rfl
        rw [this]; exact List.Pairwise.nil
      | some o =>
        refine List.Pairwise.sublist (h6 b o p ho) (order_connected (hops b o ho) ⟨fun q hq => ?_, fun q hq => ?_⟩ (hcond evs h3 b o ho) p)
        · by_cases hb : b = x
          · subst hb
            rw [hox] at ho; cases ho
            exact List.Pairwise.sublist (entry_arrives hone hF h5 _ q) (hin q hq)
          · rcases data_arrives hone hF ho hb hq with h | ⟨a, p', hc, hsub⟩
            · rw [h]; exact List.Pairwise.nil
            · exact List.Pairwise.sublist hsub (hup a p' _ hc rfl p')
        · rcases ctrl_arrives hone hF ho hq with h | ⟨a, p', hc, hsub⟩
          · rw [h]; exact List.Pairwise.nil
          · exact List.Pairwise.sublist hsub (hup a p' _ hc rfl p')
    · rw [emittedBy_away hb]; exact List.Pairwise.nil
  refine ⟨⟨evs, h3, hincr⟩, fun hfo b o ho hu p => ?_⟩
  obtain ⟨evs', k1, k2⟩ := replies_sub hac hone fuel cs P hx hf hfo
  cases log_cancel h3 k1
  have := k2 o.core.id p
  rw [emitted_by hF.honest ho hu p] at this
  exact List.Pairwise.sublist this (hincr b p)

/-- C82 for all operators but AutoRegressive and those that compute times of their own (TimeShift, Difference, the resamplers): nothing else has to hold. -/
theorem C82_order {P : Prog V} (hops : ∀ b o, P.st.heap b = some o → Connected o ∧ ¬ OwnTimes o.kind ∧ ∀ coeff, o.kind ≠ .autoReg coeff) (hac : Acyclic P.st.heap) {x : Nat} {ox : Op V}
    (hx : P.ops.find? P.entry = some x) (hox : P.st.heap x = some ox) (hone : OneInto P.st.heap x) (fuel : Nat) (cs : List (Feed V))
    (hin : ∀ p, ox.core.dataIn.has p = true → Increasing (givenTo (ox.core.dataIn.length == 1) p cs)) :
    (∃ evs, (afterCalls fuel P cs).st.log = P.st.log ++ evs ∧ ∀ b p, Increasing (emittedBy b p evs)) ∧
    (FilterOnce P → ∀ b o, P.st.heap b = some o → OnlyId P.st.heap b o.core.id → ∀ p, Increasing (listedIn (replies fuel P cs) o.core.id p)) := by
  refine C82_order_cond (fun b o ho => (hops b o ho).1) hac hx hox hone fuel cs hin fun evs _ b o ho => ?_
  obtain ⟨_, h1, h2⟩ := hops b o ho
  cases hk : o.kind with
  | autoReg coeff => exact (h2 _ hk).elim
  | _ => first | trivial | (rw [hk] at h1; exact (h1 trivial).elim)

/-! ### Concrete cases -/

theorem diamond_conns {f : Map (List Str)} {a : Nat} {p : Str} {c : Conn} (h : c ∈ connsOf (diamond f).st.heap a p) :
    p = o1 ∧ ((a = 0 ∧ (c = ⟨1, i1⟩ ∨ c = ⟨2, i1⟩)) ∨ (a = 1 ∧ c = ⟨3, i1⟩) ∨ (a = 2 ∧ c = ⟨3, i2⟩)) := by
  match a, h with
  | 0, h =>
    by_cases hp : o1 = p
    · subst hp; exact ⟨rfl, Or.inl ⟨rfl, by simpa [connsOf, diamond, progOf, heapOf, wired, Map.find?_cons] using h⟩⟩
    · simp [connsOf, diamond, progOf, heapOf, wired, Map.find?_cons, hp] at h
  | 1, h =>
    by_cases hp : o1 = p
    · subst hp; exact ⟨rfl, Or.inr (Or.inl ⟨rfl, by simpa [connsOf, diamond, progOf, heapOf, wired, Map.find?_cons] using h⟩)⟩
    · simp [connsOf, diamond, progOf, heapOf, wired, Map.find?_cons, hp] at h
  | 2, h =>
    by_cases hp : o1 = p
    · subst hp; exact ⟨rfl, Or.inr (Or.inr ⟨rfl, by simpa [connsOf, diamond, progOf, heapOf, wired, Map.find?_cons] using h⟩)⟩
    · simp [connsOf, diamond, progOf, heapOf, wired, Map.find?_cons, hp] at h
  | 3, h => simp [connsOf, diamond, progOf, heapOf, Op.newBinary] at h
  | a + 4, h => simp [connsOf, diamond, progOf, heapOf] at h

theorem diamond_oneInto (f : Map (List Str)) : OneInto (diamond f).st.heap 0 := by
  refine ⟨fun a p c hc => ?_, fun a p => ?_, fun a p a' p' c hc hc' => ?_⟩
  · rcases (diamond_conns hc).2 with ⟨_, rfl | rfl⟩ | ⟨_, rfl⟩ | ⟨_, rfl⟩ <;> decide
  · match a with
    | 0 =>
      by_cases hp : o1 = p
      · subst hp; exact (by decide : ([⟨1, i1⟩, ⟨2, i1⟩] : List Conn).Nodup)
      · simp [connsOf, diamond, progOf, heapOf, wired, Map.find?_cons, hp]
    | 1 =>
      by_cases hp : o1 = p
      · subst hp; exact (by decide : ([⟨3, i1⟩] : List Conn).Nodup)
      · simp [connsOf, diamond, progOf, heapOf, wired, Map.find?_cons, hp]
    | 2 =>
      by_cases hp : o1 = p
      · subst hp; exact (by decide : ([⟨3, i2⟩] : List Conn).Nodup)
      · simp [connsOf, diamond, progOf, heapOf, wired, Map.find?_cons, hp]
    | 3 => simp [connsOf, diamond, progOf, heapOf, Op.newBinary]
    | a + 4 => simp [connsOf, diamond, progOf, heapOf]
  · obtain ⟨rfl, h⟩ := diamond_conns hc
    obtain ⟨rfl, h'⟩ := diamond_conns hc'
    refine ⟨?_, rfl⟩
    rcases h with ⟨rfl, rfl | rfl⟩ | ⟨rfl, rfl⟩ | ⟨rfl, rfl⟩ <;> rcases h' with ⟨rfl, h'⟩ | ⟨rfl, h'⟩ | ⟨rfl, h'⟩ <;> first | rfl | (revert h'; decide)

/-- Two messages, a call that fails (there is no port "x"), one more message. -/
def threeCalls : List (Feed ℚ) := [.receive [(i1, [⟨1, 5⟩, ⟨2, 7⟩])], .receiveDebug [(b!"x", [⟨1, 0⟩])], .receive [(i1, [⟨4, 1⟩])]]

/-- The diamond meets all hypotheses. -/
example : Increasing (listedIn (replies 20 (diamond [(b!"d", [o1])]) threeCalls) b!"d" o1) := by
  refine (C82_order (P := diamond [(b!"d", [o1])]) (fun b o ho => ⟨diamond_connected _ b o ho, ?_⟩) (diamond_acyclic _) (x := 0) rfl rfl (diamond_oneInto _) 20 threeCalls
    (fun p hp => ?_)).2 ⟨?_, ?_⟩ 3 _ rfl (fun y o hy hid => ?_) o1
  · match b, ho with
    | 0, ho => cases ho; exact ⟨fun h => h, fun _ h => by cases h⟩
    | 1, ho => cases ho; exact ⟨fun h => h, fun _ h => by cases h⟩
    | 2, ho => cases ho; exact ⟨fun h => h, fun _ h => by cases h⟩
    | 3, ho => cases ho; exact ⟨fun h => h, fun _ h => by cases h⟩
    | b + 4, ho => cases ho
  · have : p = i1 := by
      by_contra hn
      have h : Map.has ([(i1, Inp.new i1 1)] : Map (Inp ℚ)) p = true := hp
      simp [Map.has, Map.find?_cons, Ne.symm hn] at h
    subst this
    unfold Increasing
    decide +kernel
  · unfold Map.Sorted; decide +kernel
  · intro id ps h
    by_cases hid : b!"d" = id
    · subst hid
      have : some [o1] = some ps := h
      cases this; decide
    · have : Map.find? ([(b!"d", [o1])] : Map (List Str)) id = some ps := h
      simp [Map.find?_cons, hid] at this
  · match y, hy with
    | 0, hy => cases hy; revert hid; decide +kernel
    | 1, hy => cases hy; revert hid; decide +kernel
    | 2, hy => cases hy; revert hid; decide +kernel
    | 3, hy => rfl
    | y + 4, hy => cases hy

/-- What is listed in this case: 5 + 1 − 5·2, 7 + 1 − 7·2, 1 + 1 − 1·2. -/
example : listedIn (replies 20 (diamond [(b!"d", [o1])]) threeCalls) b!"d" o1 = [⟨1, -4⟩, ⟨2, -6⟩, ⟨4, 0⟩] := by decide +kernel

/-- a → b, which shifts times by 10. -/
def shifted : Prog ℚ := progOf [wired (Op.newIdentity b!"a") [(o1, [⟨1, i1⟩])], Op.newTimeShift b!"b" 5 2] []

theorem shifted_conns {a : Nat} {p : Str} {c : Conn} (h : c ∈ connsOf shifted.st.heap a p) : p = o1 ∧ a = 0 ∧ c = ⟨1, i1⟩ := by
  match a, h with
  | 0, h =>
    by_cases hp : o1 = p
    · subst hp; exact ⟨rfl, rfl, by simpa [connsOf, shifted, progOf, heapOf, wired, Map.find?_cons] using h⟩
    · simp [connsOf, shifted, progOf, heapOf, wired, Map.find?_cons, hp] at h
  | 1, h => simp [connsOf, shifted, progOf, heapOf, Op.newTimeShift, Core.simple] at h
  | a + 2, h => simp [connsOf, shifted, progOf, heapOf] at h

theorem shifted_edges {a b : Nat} (h : Edge shifted.st.heap a b) : a = 0 ∧ b = 1 := by
  obtain ⟨o, ho, hb⟩ := h
  match a, ho with
  | 0, ho => cases ho; simp [nexts, wired, Op.newIdentity] at hb; exact ⟨rfl, hb⟩
  | 1, ho => cases ho; simp [nexts, Op.newTimeShift, Core.simple] at hb
  | a + 2, ho => cases ho

theorem shifted_acyclic : Acyclic shifted.st.heap := by
  intro a b h hr
  obtain ⟨rfl, rfl⟩ := shifted_edges h
  cases hr with
  | step _ e => have := shifted_edges e; omega

theorem shifted_oneInto : OneInto shifted.st.heap 0 := by
  refine ⟨fun a p c hc => ?_, fun a p => ?_, fun a p a' p' c hc hc' => ?_⟩
  · obtain ⟨_, _, rfl⟩ := shifted_conns hc; decide
  · match a with
    | 0 =>
      by_cases hp : o1 = p
      · subst hp; exact (by decide : ([⟨1, i1⟩] : List Conn).Nodup)
      · simp [connsOf, shifted, progOf, heapOf, wired, Map.find?_cons, hp]
    | 1 => simp [connsOf, shifted, progOf, heapOf, Op.newTimeShift, Core.simple]
    | a + 2 => simp [connsOf, shifted, progOf, heapOf]
  · obtain ⟨rfl, rfl, _⟩ := shifted_conns hc
    obtain ⟨rfl, rfl, _⟩ := shifted_conns hc'
    exact ⟨rfl, rfl⟩

theorem shifted_acts : addressed true i1 (actsOf 1 (afterCalls 20 shifted threeCalls).st.log) = [⟨1, 5⟩, ⟨2, 7⟩, ⟨4, 1⟩] := by decide +kernel

theorem shifted_cond (as : List (Act ℚ)) (h : addressed true i1 as = [⟨1, 5⟩, ⟨2, 7⟩, ⟨4, 1⟩]) : OrderCond (Op.newTimeShift b!"b" 5 2 : Op ℚ).kind as := by
  change Shiftable _ (addressed true i1 as)
  rw [h]
  exact ⟨by decide, Or.inl (by simp [NoOverflow]; decide)⟩

/-- A program with a TimeShift meets the hypotheses of `C82_order_cond`. -/
example : ∃ evs, (afterCalls 20 shifted threeCalls).st.log = [] ++ evs ∧ ∀ b p, Increasing (emittedBy b p evs) := by
  refine (C82_order_cond (P := shifted) (fun b o ho => ?_) shifted_acyclic (x := 0) rfl rfl shifted_oneInto 20 threeCalls (fun p hp => ?_) fun evs hl b o ho => ?_).1
  · match b, ho with
    | 0, ho => cases ho; exact ⟨_, _, .identity b!"a", rfl⟩
    | 1, ho => cases ho; exact ⟨_, [], .timeShift b!"b" 5 2, rfl⟩
    | b + 2, ho => cases ho
  · have : p = i1 := by
      by_contra hn
      have h : Map.has ([(i1, Inp.new i1 1)] : Map (Inp ℚ)) p = true := hp
      simp [Map.has, Map.find?_cons, Ne.symm hn] at h
    subst this
    unfold Increasing
    decide +kernel
  · match b, ho with
    | 0, ho => cases ho; trivial
    | 1, ho =>
      cases ho
      have h1 : evs = (afterCalls 20 shifted threeCalls).st.log := hl.symm
      rw [h1]
      exact shifted_cond _ shifted_acts
    | b + 2, ho => cases ho

/-- a → b and a → c, both into the same port of d. -/
def doubled : Prog ℚ :=
  progOf [wired (Op.newIdentity b!"a") [(o1, [⟨1, i1⟩, ⟨2, i1⟩])], wired (Op.newAdd b!"b" 1) [(o1, [⟨3, i1⟩])],
    wired (Op.newScale b!"c" 2) [(o1, [⟨3, i1⟩])], Op.newIdentity b!"d"] []

/-- With two connections into one port the times do not increase strictly. -/
example : listedIn (replies 20 doubled [.receive [(i1, [⟨1, 5⟩])]]) b!"d" o1 = [⟨1, 6⟩, ⟨1, 10⟩] := by decide +kernel

/-- With a port named twice in the outputs of the description, `receive` lists everything twice. -/
example : listedIn (replies 20 (diamond [(b!"d", [o1, o1])]) [.receive [(i1, [⟨1, 5⟩])]]) b!"d" o1 = [⟨1, -4⟩, ⟨1, -4⟩] := by decide +kernel

end Rtbot
