import Verif.Lemmas.Program
import Verif.Spec.Examples

set_option linter.unusedSectionVars false

/-! # Properties of whole programs: C26, C27, C29, C30, C31

`HeapWF` says that the port maps of all operators are in key order, which holds for every operator the constructors build. -/

namespace Rtbot
variable {V : Type} [Num V]
open Spec

/-- The example programs have port maps in key order. -/
theorem heapOf_wf {l : List (Op V)} (h : ∀ o ∈ l, o.core.WF) : HeapWF (heapOf l) := by
  intro b o hb
  exact h o (List.mem_of_getElem? hb)

theorem diamond_wf (f : Map (List Str)) : HeapWF (diamond f).st.heap := by
  apply heapOf_wf
  intro o ho
  simp only [List.mem_cons, List.not_mem_nil, or_false] at ho
  rcases ho with rfl | rfl | rfl | rfl <;> constructor <;> simp +decide [Map.Sorted]

theorem loop_wf : HeapWF loop.st.heap := by
  apply heapOf_wf
  intro o ho
  simp only [List.mem_cons, List.not_mem_nil, or_false] at ho
  rcases ho with rfl | rfl | rfl <;> constructor <;> simp +decide [Map.Sorted]

/-! ## C29: the debug report -/

/-- C29: after a successful call of `receiveDebug` the report lists for every operator id and port exactly the messages emitted there
(outside of pipelines nested in the program) during the call, in the order of emission, and nothing else: no empty entries. -/
theorem C29_report (fuel : Nat) (P P' : Prog V) (msgs : OpMsg V) (r : ProgMsg V) (hw : HeapWF P.st.heap)
    (h : P.receiveDebug fuel msgs = .ok r P') :
    ∃ evs, P'.st.log = P.st.log ++ evs ∧ (∀ id p, listed r id p = emitted P.st.depth id p evs) ∧ NoEmptyEntries r := by
  obtain ⟨_, evs, h1, h2⟩ := receiveDebug_log hw h
  exact ⟨evs, h1, fun id p => by rw [h2.report, listed_nil, List.nil_append],
    h2.good.1, fun id x hx => ⟨(h2.good.2 id x hx).2, (h2.good.2 id x hx).1.1, (h2.good.2 id x hx).1.2⟩⟩

/-- A case with a feedback loop: b is executed three times, the last time for the message its own output caused. -/
example : reportOf (loop.receiveDebug 20 [(i1, [⟨1, 0⟩])]) =
    some [([97], [(o1, [⟨1, 0⟩])]), ([98], [(o1, [⟨1, 1⟩, ⟨1, 2⟩, ⟨1, 3⟩])]), ([99], [(o1, [⟨1, 1⟩, ⟨1, 2⟩])])] := by
  decide +kernel

/-- A case with two ways from a to d: d answers once per message, when both have arrived. -/
example : reportOf ((diamond []).receiveDebug 20 [(i1, [⟨1, 5⟩, ⟨2, 7⟩])]) =
    some [([97], [(o1, [⟨1, 5⟩, ⟨2, 7⟩])]), ([98], [(o1, [⟨1, 6⟩, ⟨2, 8⟩])]), ([99], [(o1, [⟨1, 10⟩, ⟨2, 14⟩])]),
      ([100], [(o1, [⟨1, -4⟩, ⟨2, -6⟩])])] := by
  decide +kernel

/-! ## C26: batch boundaries -/

/-- C26 for `receiveDebug`: when the calls with the parts succeed, the single call succeeds, leaves the same program and reports on
every port the concatenation of the reports; when one of the calls fails, the single call fails in the same way. -/
theorem C26_debug (fuel : Nat) (p : Str) (mss : List (List (Msg V))) (hn : mss ≠ []) : ∀ (P : Prog V), HeapWF P.st.heap →
    (∀ rs P', debugCalls fuel p mss P = .ok rs P' → ∃ r, P.receiveDebug fuel [(p, mss.flatten)] = .ok r P' ∧
      ∀ id q, listed r id q = rs.flatMap (fun r' => listed r' id q)) ∧
    (∀ e P', debugCalls fuel p mss P = .err e P' → P.receiveDebug fuel [(p, mss.flatten)] = .err e P') := by
  induction mss with
  | nil => exact absurd rfl hn
  | cons ms mss ih =>
    intro P hw
    by_cases hm : mss = []
    · subst hm
      simp only [debugCalls, List.flatten_cons, List.flatten_nil, List.append_nil]
      cases hr : P.receiveDebug fuel [(p, ms)] with
      | err e P1 => simp
      | ok r P1 => simp
    · rw [List.flatten_cons, receiveDebug_append fuel P p ms mss.flatten hw]
      simp only [debugCalls]
      cases hr : P.receiveDebug fuel [(p, ms)] with
      | err e P1 => simp
      | ok r P1 =>
        have hst := receiveDebug_steps (S := Any) (fuel := fuel) (P := P) (msgs := [(p, ms)]) (ctx_any hw) (fun _ _ => trivial)
        rw [hr] at hst
        have hw1 : HeapWF P1.st.heap := hst.shape.wf hw
        obtain ⟨i1, i2⟩ := ih hm P1 hw1
        simp only []
        cases hd : debugCalls fuel p mss P1 with
        | err e P2 => simp only [i2 e P2 hd]; exact ⟨by simp, by simp⟩
        | ok rs P2 =>
          obtain ⟨r2, h2, h3⟩ := i1 rs P2 hd
          simp only [h2]
          refine ⟨?_, by intro e P' h; cases h⟩
          rintro rs' P' h
          cases h
          refine ⟨_, rfl, fun id q => ?_⟩
          obtain ⟨_, _, _, hL⟩ := receiveDebug_log hw1 h2
          rw [listed_merge hL.good, h3, List.flatMap_cons]

theorem receive_listed {fuel : Nat} {P P' : Prog V} {msgs : OpMsg V} {r : ProgMsg V} (hw : HeapWF P.st.heap) (hf : PlainFilter P.filter)
    (h : P.receiveDebug fuel msgs = .ok r P') :
    ∃ r', P.receive fuel msgs = .ok r' P' ∧ Good r' ∧
      ∀ id p, (Passes P.filter id p → listed r' id p = listed r id p) ∧ (¬ Passes P.filter id p → listed r' id p = []) := by
  obtain ⟨_, _, _, hL⟩ := receiveDebug_log hw h
  have hfr : P'.filter = P.filter := by
    have := (receiveDebug_frame (fuel := fuel) (P := P) (msgs := msgs)).2.2.2
    rw [h] at this
    exact this
  unfold Prog.receive
  rw [h]
  simp only [hfr]
  refine ⟨_, rfl, ?_⟩
  by_cases he : P.filter = []
  · rw [if_pos he]
    exact ⟨hL.good, fun id p => ⟨fun _ => rfl, fun hn => absurd (Or.inl he) hn⟩⟩
  · rw [if_neg he]
    obtain ⟨g1, g2⟩ := filterReport_listed r hL.good P.filter hf.1 [] good_nil
    refine ⟨g1, fun id p => ?_⟩
    rw [g2, listed_nil, List.nil_append]
    constructor
    · rintro (h0 | ⟨ps, h1, h2⟩)
      · exact absurd h0 he
      · rw [h1]
        simp [List.count_eq_one_of_mem (hf.2 id ps h1) h2]
    · intro hn
      cases h1 : P.filter.find? id with
      | none => rfl
      | some ps =>
        have : p ∉ ps := fun h2 => hn (Or.inr ⟨ps, h1, h2⟩)
        simp [List.count_eq_zero_of_not_mem this]

theorem receive_err {fuel : Nat} {P P' : Prog V} {msgs : OpMsg V} {e : Err} (h : P.receiveDebug fuel msgs = .err e P') :
    P.receive fuel msgs = .err e P' := by
  unfold Prog.receive; rw [h]

/-- The calls of `receive` and of `receiveDebug` side by side. -/
theorem calls_debug (fuel : Nat) (p : Str) (mss : List (List (Msg V))) : ∀ (P : Prog V), HeapWF P.st.heap → PlainFilter P.filter →
    (∀ rs P', calls fuel p mss P = .ok rs P' → ∃ ds, debugCalls fuel p mss P = .ok ds P' ∧
      ∀ id q, (Passes P.filter id q → rs.flatMap (fun r => listed r id q) = ds.flatMap (fun r => listed r id q)) ∧
        (¬ Passes P.filter id q → rs.flatMap (fun r => listed r id q) = [])) ∧
    (∀ e P', calls fuel p mss P = .err e P' → debugCalls fuel p mss P = .err e P') := by
  induction mss with
  | nil => intro P _ _; simp [calls, debugCalls]
  | cons ms mss ih =>
    intro P hw hf
    simp only [calls, debugCalls]
    cases hr : P.receiveDebug fuel [(p, ms)] with
    | err e P1 => rw [receive_err hr]; simp
    | ok r P1 =>
      obtain ⟨r', h1, _, h3⟩ := receive_listed hw hf hr
      have hst := receiveDebug_steps (S := Any) (fuel := fuel) (P := P) (msgs := [(p, ms)]) (ctx_any hw) (fun _ _ => trivial)
      have hfr := (receiveDebug_frame (fuel := fuel) (P := P) (msgs := [(p, ms)])).2.2.2
      rw [hr] at hst hfr
      have hfr : P1.filter = P.filter := hfr
      obtain ⟨i1, i2⟩ := ih P1 (hst.shape.wf hw) (by rw [hfr]; exact hf)
      rw [h1]
      simp only []
      cases hc : calls fuel p mss P1 with
      | err e P2 => simp only [i2 e P2 hc]; exact ⟨by simp, by simp⟩
      | ok rs P2 =>
        obtain ⟨ds, h4, h5⟩ := i1 rs P2 hc
        rw [h4]
        refine ⟨?_, by simp⟩
        rintro rs' P' h
        cases h
        refine ⟨_, rfl, fun id q => ?_⟩
        rw [← hfr] at h3 ⊢
        constructor
        · intro hp; simp only [List.flatMap_cons, (h3 id q).1 hp, (h5 id q).1 hp]
        · intro hp; simp only [List.flatMap_cons, (h3 id q).2 hp, (h5 id q).2 hp, List.append_nil]

/-- C26 for `receive`: as for `receiveDebug`, with any output filter. -/
theorem C26_receive (fuel : Nat) (p : Str) (mss : List (List (Msg V))) (hn : mss ≠ []) (P : Prog V) (hw : HeapWF P.st.heap)
    (hf : PlainFilter P.filter) :
    (∀ rs P', calls fuel p mss P = .ok rs P' → ∃ r, P.receive fuel [(p, mss.flatten)] = .ok r P' ∧
      ∀ id q, listed r id q = rs.flatMap (fun r' => listed r' id q)) ∧
    (∀ e P', calls fuel p mss P = .err e P' → P.receive fuel [(p, mss.flatten)] = .err e P') := by
  obtain ⟨c1, c2⟩ := calls_debug fuel p mss P hw hf
  obtain ⟨d1, d2⟩ := C26_debug fuel p mss hn P hw
  constructor
  · intro rs P' h
    obtain ⟨ds, h1, h2⟩ := c1 rs P' h
    obtain ⟨r, h3, h4⟩ := d1 ds P' h1
    obtain ⟨r', h5, _, h6⟩ := receive_listed hw hf h3
    refine ⟨r', h5, fun id q => ?_⟩
    by_cases hp : Passes P.filter id q
    · rw [(h6 id q).1 hp, (h2 id q).1 hp, h4]
    · rw [(h6 id q).2 hp, (h2 id q).2 hp]
  · intro e P' h
    exact receive_err (d2 e P' (c2 e P' h))

/-- A case: two messages in one call and in two. -/
example : PlainFilter [([99], [o1]), ([100], [o1])] ∧
    reportOf ((diamond [([99], [o1]), ([100], [o1])]).receive 20 [(i1, [⟨1, 5⟩, ⟨2, 7⟩])]) =
      some [([99], [(o1, [⟨1, 10⟩, ⟨2, 14⟩])]), ([100], [(o1, [⟨1, -4⟩, ⟨2, -6⟩])])] ∧
    reportOf (calls 20 i1 [[⟨1, 5⟩], [], [⟨2, 7⟩]] (diamond [([99], [o1]), ([100], [o1])])) =
      some [[([99], [(o1, [⟨1, 10⟩])]), ([100], [(o1, [⟨1, -4⟩])])], [], [([99], [(o1, [⟨2, 14⟩])]), ([100], [(o1, [⟨2, -6⟩])])]] := by
  refine ⟨⟨by decide, fun id ps h => ?_⟩, by decide +kernel, by decide +kernel⟩
  rw [Map.find?_cons, Map.find?_cons] at h
  split at h
  · cases h; decide
  · split at h
    · cases h; decide
    · cases h

/-! ## C27: the output filter -/

/-- C27: `receive` succeeds exactly when `receiveDebug` does, has the same effect, and with a filter that names no port twice returns
exactly the (operator, port) entries of the debug report that the filter lets pass. -/
theorem C27_filter_partial (fuel : Nat) (P : Prog V) (msgs : OpMsg V) (hw : HeapWF P.st.heap) (hf : PlainFilter P.filter) :
    (∀ r P', P.receiveDebug fuel msgs = .ok r P' → ∃ r', P.receive fuel msgs = .ok r' P' ∧ NoEmptyEntries r' ∧
      ∀ id p, (Passes P.filter id p → listed r' id p = listed r id p) ∧ (¬ Passes P.filter id p → listed r' id p = [])) ∧
    (∀ e P', P.receiveDebug fuel msgs = .err e P' → P.receive fuel msgs = .err e P') := by
  refine ⟨fun r P' h => ?_, fun e P' h => receive_err h⟩
  obtain ⟨r', h1, h2, h3⟩ := receive_listed hw hf h
  exact ⟨r', h1, ⟨h2.1, fun id x hx => ⟨(h2.2 id x hx).2, (h2.2 id x hx).1.1, (h2.2 id x hx).1.2⟩⟩, h3⟩

/-- C27 for an empty filter: everything is returned, literally. -/
theorem C27_no_filter (fuel : Nat) (P : Prog V) (msgs : OpMsg V) (hf : P.filter = []) :
    P.receive fuel msgs = P.receiveDebug fuel msgs := by
  have hfr := (receiveDebug_frame (fuel := fuel) (P := P) (msgs := msgs)).2.2.2
  unfold Prog.receive
  cases h : P.receiveDebug fuel msgs with
  | err e P' => rfl
  | ok r P' =>
    rw [h] at hfr
    have hfr : P'.filter = P.filter := hfr
    simp [hfr, hf]

/-- C27 does not hold in full: a port listed twice in the filter is reported twice, i.e. its messages are duplicated. -/
theorem C27_violated : ∃ r r',
    reportOf ((diamond [([100], [o1, o1])]).receiveDebug 20 [(i1, [⟨1, 5⟩])]) = some r ∧
    reportOf ((diamond [([100], [o1, o1])]).receive 20 [(i1, [⟨1, 5⟩])]) = some r' ∧
    listed r [100] o1 = [⟨1, -4⟩] ∧ listed r' [100] o1 = [⟨1, -4⟩, ⟨1, -4⟩] :=
  ⟨[([97], [(o1, [⟨1, 5⟩])]), ([98], [(o1, [⟨1, 6⟩])]), ([99], [(o1, [⟨1, 10⟩])]), ([100], [(o1, [⟨1, -4⟩])])],
    [([100], [(o1, [⟨1, -4⟩, ⟨1, -4⟩])])], by decide +kernel, by decide +kernel, by decide +kernel, by decide +kernel⟩

/-- What the filter does in general: the messages of a port are returned as often as the filter lists it. -/
theorem C27_general (fuel : Nat) (P P' : Prog V) (msgs : OpMsg V) (r : ProgMsg V) (hw : HeapWF P.st.heap) (hs : P.filter.Sorted)
    (h : P.receiveDebug fuel msgs = .ok r P') (hne : P.filter ≠ []) :
    ∃ r', P.receive fuel msgs = .ok r' P' ∧ ∀ id p, listed r' id p =
      match P.filter.find? id with
      | none => []
      | some ps => (List.replicate (ps.count p) (listed r id p)).flatten := by
  obtain ⟨_, _, _, hL⟩ := receiveDebug_log hw h
  have hfr := (receiveDebug_frame (fuel := fuel) (P := P) (msgs := msgs)).2.2.2
  rw [h] at hfr
  have hfr : P'.filter = P.filter := hfr
  obtain ⟨g1, g2⟩ := filterReport_listed r hL.good P.filter hs [] good_nil
  refine ⟨filterReport r P.filter [], ?_, fun id p => by rw [g2, listed_nil, List.nil_append]; cases P.filter.find? id <;> rfl⟩
  unfold Prog.receive
  rw [h]
  simp [hfr, hne]

/-! ## C30: deliveries -/

theorem deliveredFrom_filter (a : Nat) (p : Str) (b : Nat) (q : Str) (evs : List (Ev V)) :
    deliveredFrom a p b q evs = deliveredFrom a p b q (evs.filter overConn) := by
  induction evs with
  | nil => rfl
  | cons e evs ih =>
    unfold deliveredFrom at ih ⊢
    cases e with
    | emit d a' id p' m => rw [List.filter_cons_of_neg (by simp [overConn])]; simpa using ih
    | exec a' c => rw [List.filter_cons_of_neg (by simp [overConn])]; simpa using ih
    | recv frm a' p' c m =>
      cases frm with
      | none => rw [List.filter_cons_of_neg (by simp [overConn])]; simpa using ih
      | some src => rw [List.filter_cons_of_pos (by simp [overConn])]; simp only [List.filterMap_cons]; rw [ih]

theorem deliveredFrom_append (a : Nat) (p : Str) (b : Nat) (q : Str) (l l' : List (Ev V)) :
    deliveredFrom a p b q (l ++ l') = deliveredFrom a p b q l ++ deliveredFrom a p b q l' := by
  unfold deliveredFrom; rw [List.filterMap_append]

theorem delivered_one {h : Nat → Option (Op V)} {b : Nat} {q : Str} {t : Op V} (ht : h b = some t)
    (hq : t.core.isData q = true ∨ t.core.isCtrl q = true) (a : Nat) (p : Str) (a' : Nat) (p' : Str) (m : Msg V) (cs : List Conn) :
    deliveredFrom a p b q (cs.filterMap (delivery h a' p' m)) =
      if a' = a ∧ p' = p then List.replicate (cs.countP fun c => decide (c.target = b ∧ c.port = q)) m else [] := by
  induction cs with
  | nil => unfold deliveredFrom; split <;> rfl
  | cons c cs ih =>
    have hstep : deliveredFrom a p b q (List.filterMap (delivery h a' p' m) (c :: cs)) =
        deliveredFrom a p b q ((delivery h a' p' m c).toList) ++ deliveredFrom a p b q (List.filterMap (delivery h a' p' m) cs) := by
      rw [← deliveredFrom_append]
      cases hd : delivery h a' p' m c <;> simp [hd]
    rw [hstep, ih]
    have hone : deliveredFrom a p b q ((delivery h a' p' m c).toList) =
        if (a' = a ∧ p' = p) ∧ c.target = b ∧ c.port = q then [m] else [] := by
      unfold delivery
      by_cases hb : c.target = b ∧ c.port = q
      · rw [hb.1, ht]
        simp only [hb.2]
        have hr : ∀ c', deliveredFrom a p b q (some (Ev.recv (some (a', p')) b q c' m)).toList = if a' = a ∧ p' = p then [m] else [] := by
          intro c'
          by_cases ha : a' = a ∧ p' = p <;> simp [deliveredFrom, ha]
        by_cases h1 : t.core.isData q = true
        · rw [if_pos h1, hr]; simp
        · rw [if_neg h1, if_pos (hq.resolve_left h1), hr]; simp
      · rw [if_neg (fun hh => hb hh.2)]
        cases h c.target with
        | none => rfl
        | some t' =>
          simp only []
          split
          · simp only [deliveredFrom, Option.toList_some, List.filterMap_cons, List.filterMap_nil]
            rw [if_neg (fun hh => hb hh.2)]
          · split
            · simp only [deliveredFrom, Option.toList_some, List.filterMap_cons, List.filterMap_nil]
              rw [if_neg (fun hh => hb hh.2)]
            · rfl
    rw [hone, List.countP_cons]
    by_cases ha : a' = a ∧ p' = p
    · by_cases hb : c.target = b ∧ c.port = q
      · rw [if_pos ⟨ha, hb⟩, if_pos ha, if_pos ha, if_pos (by simpa using hb), Nat.add_comm, List.replicate_add]; rfl
      · rw [if_neg (fun hh => hb hh.2), if_pos ha, if_pos ha, if_neg (by simpa using hb)]; rfl
    · rw [if_neg (fun hh => ha hh.1), if_neg ha, if_neg ha]; rfl

/-- C30: during a successful call the messages handed to a data or control input `q` of operator `b` over connections from output port `p` of operator
`a` are exactly the messages `a` emitted on `p`, in order, once per such connection (so once for a single connection). -/
theorem C30_delivered (fuel : Nat) (P P' : Prog V) (msgs : OpMsg V) (r : ProgMsg V) (hw : HeapWF P.st.heap)
    (h : P.receiveDebug fuel msgs = .ok r P') :
    ∃ evs, P'.st.log = P.st.log ++ evs ∧ ∀ a p b q t, P.st.heap b = some t → t.core.isData q = true ∨ t.core.isCtrl q = true →
      deliveredFrom a p b q evs = (emittedBy a p evs).flatMap fun m =>
        List.replicate ((connsOf P.st.heap a p).countP fun c => decide (c.target = b ∧ c.port = q)) m := by
  obtain ⟨_, evs, h1, h2⟩ := receiveDebug_log hw h
  refine ⟨evs, h1, fun a p b q t ht hq => ?_⟩
  rw [deliveredFrom_filter, h2.complete]
  clear h1 h2
  induction evs with
  | nil => rfl
  | cons e evs ih =>
    rw [List.flatMap_cons, deliveredFrom_append, ih]
    have : emittedBy a p (e :: evs) = emittedBy a p [e] ++ emittedBy a p evs := by
      unfold emittedBy; rw [← List.filterMap_append]; rfl
    rw [this, List.flatMap_append]
    congr 1
    cases e with
    | recv frm a' p' c m => rfl
    | exec a' c => rfl
    | emit d a' id p' m =>
      simp only [deliveries]
      rw [delivered_one ht hq]
      by_cases hh : a' = a ∧ p' = p
      · simp [emittedBy, hh]
      · simp [emittedBy, hh]

/-- C30, timing: in the log of a successful call every emission is directly followed by all its deliveries, before any operator executes. -/
theorem C30_orderly (fuel : Nat) (P P' : Prog V) (msgs : OpMsg V) (r : ProgMsg V) (hw : HeapWF P.st.heap)
    (h : P.receiveDebug fuel msgs = .ok r P') : ∃ evs, P'.st.log = P.st.log ++ evs ∧ Orderly P.st.heap evs := by
  obtain ⟨_, evs, h1, h2⟩ := receiveDebug_log hw h
  exact ⟨evs, h1, h2.orderly⟩

/-- A case: one of the two connections of a. -/
example : (connsOf (diamond []).st.heap 0 o1).countP (fun c => decide (c.target = 2 ∧ c.port = i1)) = 1 ∧
    emittedBy 0 o1 ((diamond []).receiveDebug 20 [(i1, [⟨1, 5⟩, ⟨2, 7⟩])]).state.st.log = [⟨1, 5⟩, ⟨2, 7⟩] ∧
    deliveredFrom 0 o1 2 i1 ((diamond []).receiveDebug 20 [(i1, [⟨1, 5⟩, ⟨2, 7⟩])]).state.st.log = [⟨1, 5⟩, ⟨2, 7⟩] :=
  ⟨by decide +kernel, by decide +kernel, by decide +kernel⟩

/-! ## C31: isolation of operators that are not downstream -/

/-- C31: whatever the outcome of a call, every operator that is not reachable from the entry operator by connections (or by being an inner
operator of a reachable Composite or Pipeline) is the same afterwards, and takes no part in the call. -/
theorem C31_untouched (fuel : Nat) (P : Prog V) (msgs : OpMsg V) (hw : HeapWF P.st.heap) (b : Nat)
    (hb : ∀ a, P.ops.find? P.entry = some a → ¬ Reach P.st.heap a b) :
    (P.receive fuel msgs).state.st.heap b = P.st.heap b ∧
    ∃ evs, (P.receive fuel msgs).state.st.log = P.st.log ++ evs ∧ ∀ e ∈ evs, addr e ≠ b := by
  have hstate : (P.receive fuel msgs).state = (P.receiveDebug fuel msgs).state := by
    unfold Prog.receive
    cases P.receiveDebug fuel msgs <;> rfl
  rw [hstate]
  cases ha : P.ops.find? P.entry with
  | none =>
    unfold Prog.receiveDebug
    rw [ha]
    exact ⟨rfl, [], by simp [Res.state], by simp⟩
  | some a =>
    have hst := receiveDebug_steps (S := Reach P.st.heap a) (fuel := fuel) (P := P) (msgs := msgs)
      ⟨hw, closed_reach _ _⟩ (fun a' ha' => by rw [ha] at ha'; cases ha'; exact .refl)
    obtain ⟨evs, h1, h2, _, h4⟩ := hst.trace
    have hno : ∀ e ∈ evs, addr e ≠ b := by
      rintro e he rfl
      exact hb a ha (h2 e he)
    exact ⟨h4 b hno, evs, h1, hno⟩

/-- A case: the second operator feeds the third one but is not fed itself. -/
def bystander : Prog ℚ :=
  progOf [wired (Op.newIdentity [97]) [(o1, [⟨2, i1⟩])], wired (Op.newAdd [98] 1) [(o1, [⟨2, i2⟩])], Op.newBinary [99] .plus] []

example : ∀ a, bystander.ops.find? bystander.entry = some a → ¬ Reach bystander.st.heap a 1 := by
  intro a ha
  have : a = 0 := by
    have h0 : bystander.ops.find? bystander.entry = some 0 := by decide
    rw [h0] at ha; cases ha; rfl
  subst this
  intro hr
  have key : ∀ b, Reach bystander.st.heap 0 b → b = 0 ∨ b = 2 := by
    intro b hb
    induction hb with
    | refl => exact Or.inl rfl
    | step _ he ih =>
      obtain ⟨o, ho, hm⟩ := he
      rcases ih with h | h
      · subst h
        have : o = wired (Op.newIdentity [97]) [(o1, [⟨2, i1⟩])] := (Option.some.inj ho).symm
        subst this
        right
        simpa [nexts, wired, Op.newIdentity] using hm
      · subst h
        have : o = Op.newBinary [99] .plus := (Option.some.inj ho).symm
        subst this
        simp [nexts, Op.newBinary] at hm
  rcases key 1 hr with h | h <;> cases h

end Rtbot
