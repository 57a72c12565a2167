import Verif.Lemmas.Selector
import Verif.Lemmas.DoubleSqrt
import Verif.Lemmas.DoubleArith
import Verif.Props.JoinTest
import Verif.Spec.Exact

/-! # C93: the example program with a Demultiplexer -/

namespace Rtbot
open Spec Wave Selector
variable {V : Type} [Num V]

namespace Selector

set_option maxHeartbeats 4000000 in
/-- The program as it is made. -/
theorem made (junk : Junk V) (json : Str) : ∃ P, Prog.initWith junk json (selectorJson V) = .ok P ∧
    P.st.heap = heapOf (ops none 0 (Num.ofNat 0) (Num.ofNat 0) (Num.ofNat 0) fun _ => Inp.new i1 1) ∧ P.ops.find? P.entry = some 0 := by
  refine ⟨_, rfl, ?_, rfl⟩
  funext a
  match a with
  | 0 => rfl
  | 1 => rfl
  | 2 => rfl
  | 3 => rfl
  | 4 => rfl
  | 5 => rfl
  | 6 => rfl
  | 7 => rfl
  | 8 => rfl
  | 9 => rfl
  | 10 => rfl
  | 11 => rfl
  | 12 => rfl
  | a + 13 => rfl

def in1 : Op V := match Op.newInput b!"in" 1 with | .ok o => o | .error _ => Op.newIdentity []
def dm2 : Op V := match Op.newDemux b!"dm" 2 with | .ok o => o | .error _ => Op.newIdentity []
theorem in1_eq : (Op.newInput b!"in" 1 : Except Err (Op V)) = .ok in1 := rfl
theorem dm2_eq : (Op.newDemux b!"dm" 2 : Except Err (Op V)) = .ok dm2 := rfl
theorem out_eq : (Op.newOutput b!"out" 2 : Except Err (Op V)) = .ok outOp := rfl

theorem connected : ∀ b o, heapOf (ops none 0 (Num.ofNat 0) (Num.ofNat 0) (Num.ofNat 0) fun _ => Inp.new i1 1) b = some o → Connected (o : Op V) := by
  refine Finite.all_of_mem ?_
  intro o ho
  simp only [ops, List.mem_cons, List.not_mem_nil, or_false] at ho
  rcases ho with rfl | rfl | rfl | rfl | rfl | rfl | rfl | rfl | rfl | rfl | rfl | rfl | rfl
  · exact ⟨_, [(o1, [⟨2, i1⟩, ⟨1, i1⟩])], .input in1_eq, rfl⟩
  · exact ⟨_, [(o1, [⟨3, i1⟩, ⟨4, i1⟩, ⟨5, i1⟩])], .count b!"count", rfl⟩
  · exact ⟨_, [], .demux dm2_eq, rfl⟩
  · exact ⟨_, [(o1, [⟨7, i1⟩, ⟨6, i1⟩])], .filter b!"lt" .lessThan (Num.ofNat 20), rfl⟩
  · exact ⟨_, [(o1, [⟨11, i1⟩, ⟨10, i1⟩])], .filter b!"gt" .greaterThan (Num.ofNat 20), rfl⟩
  · exact ⟨_, [(o1, [⟨8, i1⟩, ⟨9, i1⟩])], .filter b!"et" .equalTo (Num.ofNat 20), rfl⟩
  · exact ⟨_, [(o1, [⟨2, c2⟩])], .constant b!"clt20z" (Num.ofNat 0), rfl⟩
  · exact ⟨_, [(o1, [⟨2, c1⟩])], .constant b!"clt20o" (Num.ofNat 1), rfl⟩
  · exact ⟨_, [(o1, [⟨2, c1⟩])], .constant b!"cet20z" (Num.ofNat 0), rfl⟩
  · exact ⟨_, [(o1, [⟨2, c2⟩])], .constant b!"cet20o" (Num.ofNat 1), rfl⟩
  · exact ⟨_, [(o1, [⟨2, c1⟩])], .constant b!"cgt20z" (Num.ofNat 0), rfl⟩
  · exact ⟨_, [(o1, [⟨2, c2⟩])], .constant b!"cgt20o" (Num.ofNat 1), rfl⟩
  · exact ⟨_, [], .output out_eq, rfl⟩

variable {B : Nat}

/-- What happens between two states of the program: `R` are the messages taken on, `k` those before. -/
structure Does (k : Nat) (R : List (Msg V)) (evs : List (Ev V)) : Prop where
  first : emittedBy 2 o1 evs = R.take (19 - k)
  second : emittedBy 2 o2 evs = R.drop (19 - k)

theorem Does.append {k : Nat} {R R' : List (Msg V)} {evs evs' : List (Ev V)} (h : Does k R evs) (h' : Does (k + R.length) R' evs') : Does k (R ++ R') (evs ++ evs') := by
  constructor
  · rw [emittedBy_append, h.first, h'.first, List.take_append]
    congr 2
    omega
  · rw [emittedBy_append, h.second, h'.second, List.drop_append]
    congr 2
    omega

/-- The messages of one port, one after the other. -/
theorem feeds (hT : Tells V B) (hB : 20 ≤ B) (hB64 : B < 2 ^ 64) {d f : Nat} (ms : List (Msg V)) : ∀ (k : Nat) (last : Option (Msg V)) (s s1 s2 : V) (b : Nat → Inp V) (g : List (Ev V)) (out : ProgMsg V),
    (∀ a, One (b a)) → k + (records (last.map (·.time)) ms).length ≤ B →
    ∃ r evs last' s' s1' s2' b', feedPort (f + 5) 0 i1 ms out (at_ (ops last (UInt64.ofNat k) s s1 s2 b) d g) =
        .ok r (at_ (ops last' (UInt64.ofNat (k + (records (last.map (·.time)) ms).length)) s' s1' s2' b') d (g ++ evs)) ∧ (∀ a, One (b' a)) ∧
      Does k (records (last.map (·.time)) ms) evs ∧ ∀ ms', records (last.map (·.time)) (ms ++ ms') = records (last.map (·.time)) ms ++ records (last'.map (·.time)) ms' := by
  induction ms with
  | nil =>
    intro k last s s1 s2 b g out hb _
    refine ⟨out, [], last, s, s1, s2, b, ?_, hb, ⟨by simp [records, emittedBy], by simp [records, emittedBy]⟩, fun _ => rfl⟩
    rw [List.append_nil]
    rfl
  | cons m ms ih =>
    intro k last s s1 s2 b g out hb hk
    by_cases hn : newer (last.map (·.time)) m.time = true
    · have hrec : ∀ l, records (last.map (·.time)) (m :: l) = m :: records ((some m).map (·.time)) l := fun l => by
        conv_lhs => unfold records
        rw [if_pos hn]
        rfl
      rw [hrec, List.length_cons] at hk
      obtain ⟨r1, g1, t, t1, t2, b1, k1, k2, k3⟩ := feed_one hT hB (k := k) (by omega) (by omega) (s := s) (s1 := s1) (s2 := s2) hb m (d := d) (f := f) (g := g) hn
      obtain ⟨r, evs, last', s', s1', s2', b', k4, k5, k6, k7⟩ := ih (k + 1) (some m) t t1 t2 b1 (g ++ g1) (if r1 = [] then out else mergeProg out r1) k2 (by omega)
      refine ⟨r, g1 ++ evs, last', s', s1', s2', b', ?_, k5, ?_, fun ms' => ?_⟩
      · unfold feedPort at k4 ⊢
        rw [fold_cons]
        simp only [M.bind_def, k1]
        rw [hrec, List.length_cons, show k + ((records ((some m).map (·.time)) ms).length + 1) = k + 1 + (records ((some m).map (·.time)) ms).length by omega, ← List.append_assoc]
        exact k4
      · rw [hrec]
        have h1 : Does k [m] g1 := by
          by_cases h : k + 1 < 20
          · refine ⟨?_, ?_⟩
            · rw [k3, if_pos h, List.take_of_length_le (by simp; omega)]; rfl
            · rw [k3, if_pos h, List.drop_of_length_le (by simp; omega)]; rfl
          · refine ⟨?_, ?_⟩
            · rw [k3, if_neg h, show 19 - k = 0 by omega]; rfl
            · rw [k3, if_neg h, show 19 - k = 0 by omega]; rfl
        exact h1.append k6
      · rw [List.cons_append, hrec, hrec, k7]
        rfl
    · have hn' : newer (last.map (·.time)) m.time = false := by simpa using hn
      have hrec : ∀ l, records (last.map (·.time)) (m :: l) = records (last.map (·.time)) l := fun l => by
        conv_lhs => unfold records
        rw [if_neg hn]
      rw [hrec] at hk
      obtain ⟨r1, g1, b1, k1, k2, k3⟩ := feed_none (n := UInt64.ofNat k) (s := s) (s1 := s1) (s2 := s2) hb m (d := d) (f := f) (g := g) hn'
      obtain ⟨r, evs, last', s', s1', s2', b', k4, k5, k6, k7⟩ := ih k last s s1 s2 b1 (g ++ g1) (if r1 = [] then out else mergeProg out r1) k2 hk
      refine ⟨r, g1 ++ evs, last', s', s1', s2', b', ?_, k5, ?_, fun ms' => ?_⟩
      · unfold feedPort at k4 ⊢
        rw [fold_cons]
        simp only [M.bind_def, k1]
        rw [hrec, ← List.append_assoc]
        exact k4
      · rw [hrec]
        have h1 : Does k ([] : List (Msg V)) g1 := ⟨by rw [k3]; simp, by rw [k3]; simp⟩
        exact h1.append k6
      · rw [List.cons_append, hrec, hrec, k7]

/-- Calls one after the other. -/
theorem calls (hT : Tells V B) (hB : 20 ≤ B) (hB64 : B < 2 ^ 64) {f : Nat} (mss : List (List (Msg V))) : ∀ (k : Nat) (last : Option (Msg V)) (s s1 s2 : V) (b : Nat → Inp V) (P : Prog V),
    (∀ a, One (b a)) → P.st.heap = heapOf (ops last (UInt64.ofNat k) s s1 s2 b) → P.ops.find? P.entry = some 0 → k + (records (last.map (·.time)) mss.flatten).length ≤ B →
    ∃ rs P' evs, debugRun (f + 5) (mss.map fun ms => [(i1, ms)]) P = .ok rs P' ∧ P'.st.log = P.st.log ++ evs ∧ Does k (records (last.map (·.time)) mss.flatten) evs := by
  induction mss with
  | nil =>
    intro k last s s1 s2 b P _ _ _ _
    exact ⟨[], P, [], rfl, by simp, by simp [records, emittedBy], by simp [records, emittedBy]⟩
  | cons ms mss ih =>
    intro k last s s1 s2 b P hb hh he hk
    have hst : P.st = at_ (ops last (UInt64.ofNat k) s s1 s2 b) P.st.depth P.st.log := by
      unfold at_
      rw [← hh]
    rw [List.flatten_cons] at hk ⊢
    have hle : (records (last.map (·.time)) ms).length ≤ (records (last.map (·.time)) (ms ++ mss.flatten)).length := by
      have aux : ∀ (l : List (Msg V)) (t : Option UInt64), (records t l).length ≤ (records t (l ++ mss.flatten)).length := by
        intro l
        induction l with
        | nil => intro t; exact Nat.zero_le _
        | cons m l ih =>
          intro t
          rw [List.cons_append]
          unfold records
          split
          · simpa using ih _
          · exact ih _
      exact aux ms _
    obtain ⟨r, evs, last', s', s1', s2', b', k1, k2, k3, k4⟩ := feeds hT hB hB64 (d := P.st.depth) (f := f) ms k last s s1 s2 b P.st.log [] hb (by omega)
    rw [k4, List.length_append] at hk
    have h1 : P.receiveDebug (f + 5) [(i1, ms)] = .ok r { P with st := at_ (ops last' (UInt64.ofNat (k + (records (last.map (·.time)) ms).length)) s' s1' s2' b') P.st.depth (P.st.log ++ evs) } := by
      unfold Prog.receiveDebug
      rw [he]
      dsimp only
      have : feedAll (f + 5) 0 [(i1, ms)] P.st = .ok r (at_ (ops last' (UInt64.ofNat (k + (records (last.map (·.time)) ms).length)) s' s1' s2' b') P.st.depth (P.st.log ++ evs)) := by
        unfold feedAll
        refine fold_step (b' := r) ?_ (fold_nil _ _ _)
        rw [← hst] at k1
        exact k1
      rw [this]
    obtain ⟨rs, P', evs', k5, k6, k7⟩ := ih (k + (records (last.map (·.time)) ms).length) last' s' s1' s2' b'
      { P with st := at_ (ops last' (UInt64.ofNat (k + (records (last.map (·.time)) ms).length)) s' s1' s2' b') P.st.depth (P.st.log ++ evs) } k2 rfl he (by omega)
    refine ⟨r :: rs, P', evs ++ evs', ?_, ?_, ?_⟩
    · rw [List.map_cons]
      unfold debugRun
      rw [h1]
      dsimp only
      rw [k5]
    · rw [k6, ← List.append_assoc]
      rfl
    · rw [k4]
      exact k3.append k7

end Selector

/-- C93: the program made from examples/data/program-test-4.json answers every sequence of calls, and its Demultiplexer "dm" reports the first 19 of the messages that the Input takes on (those later than
all before) on port "o1" and all others on port "o2", each once and in order, in whatever batches they are given. `B` bounds the number of messages counted; the numbers up to `B` have to be told
apart by the comparisons. -/
theorem C93_selects {B : Nat} (hT : Tells V B) (hB : 20 ≤ B) (hB64 : B < 2 ^ 64) {junk : Junk V} {json : Str} {P : Prog V} (hP : Prog.initWith junk json (selectorJson V) = .ok P) {fuel : Nat} (hf : 5 ≤ fuel)
    (mss : List (List (Msg V))) (hlen : (records none mss.flatten).length ≤ B) :
    ∃ rs P', debugRun fuel (mss.map fun ms => [(i1, ms)]) P = .ok rs P' ∧ (rs.flatMap fun r => listed r b!"dm" b!"o1") = (records none mss.flatten).take 19 ∧
      (rs.flatMap fun r => listed r b!"dm" b!"o2") = (records none mss.flatten).drop 19 := by
  obtain ⟨P0, e0, hh, he⟩ := Selector.made junk json
  rw [hP] at e0
  cases e0
  obtain ⟨f, rfl⟩ : ∃ f, fuel = f + 5 := ⟨fuel - 5, by omega⟩
  obtain ⟨rs, P', evs, h, hl, hd⟩ := Selector.calls hT hB hB64 (f := f) mss 0 none _ _ _ _ P (fun _ => ⟨rfl, Nat.zero_le _⟩) hh he (by simpa using hlen)
  have hfi := fine_start (s := P.st) (by rw [hh]; exact Selector.connected)
  obtain ⟨_, evs2, h3, h4⟩ := debugRun_listed _ hfi.wf h
  obtain ⟨_, _, evs3, h5, h6⟩ := debugRun_honest _ h hfi.wf hfi.simple
  cases log_cancel hl h3
  cases log_cancel hl h5
  have h0 : P.st.heap 2 = some (dm (Num.ofNat 0) (Num.ofNat 0) (Num.ofNat 0) [] [] []) := by rw [hh]; rfl
  have hu := JoinTest.unique (l := ops none 0 (Num.ofNat 0) (Num.ofNat 0) (Num.ofNat 0) fun _ => Inp.new i1 1)
    (show ([b!"in", b!"count", b!"dm", b!"lt", b!"gt", b!"et", b!"clt20z", b!"clt20o", b!"cet20z", b!"cet20o", b!"cgt20z", b!"cgt20o", b!"out"] : List Str).Nodup by decide) hh h0
  exact ⟨rs, P', h, ((h4 b!"dm" b!"o1").trans (emitted_by h6 h0 hu _)).trans hd.first, ((h4 b!"dm" b!"o2").trans (emitted_by h6 h0 hu _)).trans hd.second⟩

/-- C93 over ordered fields: for fewer than 2^64 messages. -/
theorem C93_exact {V : Type} [Num V] [Field V] [LinearOrder V] [IsStrictOrderedRing V] [Exact V] {junk : Junk V} {json : Str} {P : Prog V} (hP : Prog.initWith junk json (selectorJson V) = .ok P) {fuel : Nat}
    (hf : 5 ≤ fuel) (mss : List (List (Msg V))) (hinc : Increasing mss.flatten) (hlen : mss.flatten.length < 2 ^ 64) :
    ∃ rs P', debugRun fuel (mss.map fun ms => [(i1, ms)]) P = .ok rs P' ∧ (rs.flatMap fun r => listed r b!"dm" b!"o1") = mss.flatten.take 19 ∧
      (rs.flatMap fun r => listed r b!"dm" b!"o2") = mss.flatten.drop 19 := by
  have hT : Tells V (2 ^ 64 - 1) := by
    intro a b _ _
    refine ⟨?_, ?_⟩
    · rw [Bool.eq_iff_iff, Exact.lt_iff, Exact.ofNat_eq, Exact.ofNat_eq, decide_eq_true_eq, Nat.cast_lt]
    · rw [Bool.eq_iff_iff, Exact.eq_iff, Exact.ofNat_eq, Exact.ofNat_eq, decide_eq_true_eq, Nat.cast_inj]
  have hr : records none mss.flatten = mss.flatten := Bands.records_self _ _ (fun _ _ => rfl) hinc
  have := C93_selects hT (by norm_num) (by norm_num) hP hf mss (by rw [hr]; omega)
  rwa [hr] at this

theorem Selector.tells_int [F64.Platform] {x y : F64} {a b : Nat} (hx : Spec.IsInt x a) (hy : Spec.IsInt y b) : Num.lt x y = decide (a < b) ∧ Num.eq x y = decide (a = b) := by
  obtain ⟨h1, _, h3⟩ := F64.compare_fin hx.1 hy.1
  rw [hx.2, hy.2] at h1 h3
  refine ⟨?_, ?_⟩
  · rw [Bool.eq_iff_iff, h1, decide_eq_true_eq]
    norm_cast
  · rw [Bool.eq_iff_iff, h3, decide_eq_true_eq]
    norm_cast

/-- C93 over doubles: for up to 2^53 messages. -/
theorem C93_double [F64.Platform] {junk : Junk F64} {json : Str} {P : Prog F64} (hP : Prog.initWith junk json (selectorJson F64) = .ok P) {fuel : Nat}
    (hf : 5 ≤ fuel) (mss : List (List (Msg F64))) (hinc : Increasing mss.flatten) (hlen : mss.flatten.length ≤ 2 ^ 53) :
    ∃ rs P', debugRun fuel (mss.map fun ms => [(i1, ms)]) P = .ok rs P' ∧ (rs.flatMap fun r => listed r b!"dm" b!"o1") = mss.flatten.take 19 ∧
      (rs.flatMap fun r => listed r b!"dm" b!"o2") = mss.flatten.drop 19 := by
  have hT : Tells F64 (2 ^ 53) := fun a b ha hb => Selector.tells_int (F64.ofNat_int ha) (F64.ofNat_int hb)
  have hr : records none mss.flatten = mss.flatten := Bands.records_self _ _ (fun _ _ => rfl) hinc
  have := C93_selects hT (by norm_num) (by norm_num) hP hf mss (by rw [hr]; exact hlen)
  rwa [hr] at this

/-- Cases: the numbers up to 2^64 - 1 are told apart over ℚ; a run of the program with one message out of order. -/
example : Tells ℚ (2 ^ 64 - 1) := fun a b _ _ => ⟨by simp [Num.lt, Num.ofNat], by simp [Num.eq, Num.ofNat]⟩

def Selector.sample : List (List (Msg ℚ)) := [(List.range 18).map fun n => ⟨UInt64.ofNat (n + 1), n⟩, [⟨20, 5⟩, ⟨20, 6⟩, ⟨21, 7⟩], [⟨30, 8⟩]]

example : (match Prog.initWith (fun _ => (0, 0)) [] (selectorJson ℚ) with
    | .ok P => match debugRun 5 (Selector.sample.map fun ms => [(i1, ms)]) P with
      | .ok rs _ => some ((rs.flatMap fun r => listed r b!"dm" b!"o1").length, rs.flatMap fun r => listed r b!"dm" b!"o2")
      | .err _ _ => none
    | .error _ => none) = some (19, [⟨21, 7⟩, ⟨30, 8⟩]) := by decide +kernel

end Rtbot
