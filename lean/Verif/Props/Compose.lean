import Verif.Lemmas.ComposeOut
import Verif.Props.Ports
import Verif.Props.Pointwise
import Verif.Lemmas.Wired

set_option linter.unusedSectionVars false

/-! # C32: programs compute the composition of the stream functions of their operators -/

namespace Rtbot
variable {V : Type} [Num V]
open Spec

/-- C32: an operator fed by a single connection gets exactly the messages emitted at the other end, one after the other, each
received and executed before the next; whatever else the program contains and whatever the messages given to the program are. -/
theorem C32_calls {P P' : Prog V} {fuel x a b : Nat} {p q : Str} {calls : List (OpMsg V)} {rs} (hw : HeapWF P.st.heap)
    (hx : P.ops.find? P.entry = some x) (hb : x ≠ b) (w : Wire P.st.heap a p b q) (h : debugRun fuel calls P = .ok rs P') :
    ∃ evs, P'.st.log = P.st.log ++ evs ∧ actsOf b evs = inTurn q (emittedBy a p evs) :=
  (debugRun_fed hb calls hx h hw w).2

/-- C32: what an operator emits on a port during successful calls is what its own methods return when called as logged, and its
state afterwards is the one these calls lead to; the entry operator is called with the given messages, in order. -/
theorem C32_emits {P P' : Prog V} {fuel x b : Nat} {o : Op V} {calls : List (OpMsg V)} {rs} (hc : ∀ b o, P.st.heap b = some o → Connected o)
    (hac : Acyclic P.st.heap) (hx : P.ops.find? P.entry = some x) (ho : P.st.heap b = some o) (h : debugRun fuel calls P = .ok rs P') (p : Str) :
    ∃ evs, P'.st.log = P.st.log ++ evs ∧ emittedBy b p evs = collected p (results o (actsOf b evs)) ∧
      P'.st.heap b = some (after o (actsOf b evs)) ∧ (x = b → actsOf b evs = handed calls) := by
  have hf := fine_start hc
  have c : Calm P.st.heap b o := ⟨ho, hf.simple b o ho, hf.ports b o ho, fun y hy => hac b y hy⟩
  obtain ⟨_, evs, h1, h2, h3, h4⟩ := debugRun_out (p := p) calls hx h o hf.wf c
  exact ⟨evs, h1, h3, h2.here, h4⟩

theorem yields_reach {h : Nat → Option (Op V)} {x : Nat} {p0 : Str} {input ms : List (Msg V)} {b : Nat} {p : Str}
    (hy : Yields h x p0 input b p ms) : Reach h x b := by
  induction hy with
  | entry => exact .refl
  | @next a b o f ms p q p' ha w ho hf ih =>
    refine .step ih ?_
    have := w.once p
    rw [if_pos rfl] at this
    have hm : (⟨b, q⟩ : Conn) ∈ connsOf h a p := (List.mem_filter.1 (by rw [this]; simp)).1
    unfold connsOf at hm
    split at hm
    · cases hm
    · rename_i o' ho'
      split at hm
      · cases hm
      · rename_i cs hcs
        exact mem_connsOf ho' hcs hm

theorem handed_one (p : Str) (mss : List (List (Msg V))) : handed (mss.map fun ms => [(p, ms)]) = inTurn p mss.flatten := by
  induction mss with
  | nil => rfl
  | cons ms mss ih =>
    unfold handed at *
    rw [List.map_cons, List.flatMap_cons, ih, List.flatten_cons, inTurn_append]
    simp

/-- C32: in an acyclic program fed on one port, every operator to which a path of sole connections leads from the entry emits the
composition of the stream functions along the path, applied to the messages given to the program (in any batches). -/
theorem C32_composition {P P' : Prog V} {fuel x : Nat} {p0 : Str} {mss : List (List (Msg V))} {rs} (hc : ∀ b o, P.st.heap b = some o → Connected o)
    (hac : Acyclic P.st.heap) (hx : P.ops.find? P.entry = some x) (h : debugRun fuel (mss.map fun ms => [(p0, ms)]) P = .ok rs P')
    {b : Nat} {p : Str} {out : List (Msg V)} (hy : Yields P.st.heap x p0 mss.flatten b p out) :
    ∃ evs, P'.st.log = P.st.log ++ evs ∧ emittedBy b p evs = out := by
  induction hy with
  | @entry o f p ho hf =>
    obtain ⟨evs, h1, h2, _, h4⟩ := C32_emits hc hac hx ho h p
    refine ⟨evs, h1, ?_⟩
    obtain ⟨o', k⟩ := hf mss.flatten
    rw [h2, h4 rfl, handed_one, feedOp_collected p p0 _ k]
  | @next a b o f ms p q p' ha w ho hf ih =>
    obtain ⟨evs, h1, h2, _, _⟩ := C32_emits hc hac hx ho h p'
    obtain ⟨evs', h1', h3⟩ := ih
    have hb : x ≠ b := by
      rintro rfl
      have hr := yields_reach ha
      have hr' := yields_reach (Yields.next p' ha w ho hf)
      cases hr' with
      | refl =>
        have := w.once p
        rw [if_pos rfl] at this
        have hm : (⟨x, q⟩ : Conn) ∈ connsOf P.st.heap a p := (List.mem_filter.1 (by rw [this]; simp)).1
        unfold connsOf at hm
        split at hm
        · cases hm
        · rename_i o' ho'
          split at hm
          · cases hm
          · rename_i cs hcs
            exact w.noBack x (mem_connsOf ho' hcs hm) hr
      | step hr'' e => exact hac _ _ e hr''
    obtain ⟨evs2, h5, h6⟩ := C32_calls (fine_start hc).wf hx hb w h
    have e1 := log_cancel h1 h1'
    subst e1
    have e2 := log_cancel h1 h5
    subst e2
    refine ⟨evs, h1, ?_⟩
    obtain ⟨o', k⟩ := hf ms
    rw [h2, h6, h3, feedOp_collected p' q _ k]

/-- C32 read off the reports: for an operator whose id is unique, the reports of the calls together list the composition. -/
theorem C32_reports {P P' : Prog V} {fuel x : Nat} {p0 : Str} {mss : List (List (Msg V))} {rs} (hc : ∀ b o, P.st.heap b = some o → Connected o)
    (hac : Acyclic P.st.heap) (hx : P.ops.find? P.entry = some x) (h : debugRun fuel (mss.map fun ms => [(p0, ms)]) P = .ok rs P')
    {b : Nat} {p : Str} {out : List (Msg V)} (hy : Yields P.st.heap x p0 mss.flatten b p out) {o : Op V} (ho : P.st.heap b = some o)
    (hu : ∀ x o', P.st.heap x = some o' → o'.core.id = o.core.id → x = b) : (rs.flatMap fun r => listed r o.core.id p) = out := by
  have hf := fine_start hc
  obtain ⟨evs, h1, h2⟩ := C32_composition hc hac hx h hy
  obtain ⟨_, evs', h3, h4⟩ := debugRun_listed _ hf.wf h
  obtain ⟨_, _, evs2, h5, h6⟩ := debugRun_honest _ h hf.wf hf.simple
  have e1 := log_cancel h1 h3
  subst e1
  have e2 := log_cancel h1 h5
  subst e2
  rw [h4, emitted_by h6 ho hu, h2]

/-! ### A case -/

/-- In the diamond, the connection from the entry to the operator that adds 1 is the only one leading there. -/
theorem diamond_wire (f : Map (List Str)) : Wire (diamond f).st.heap 0 o1 1 i1 where
  source := ⟨_, rfl, trivial⟩
  target := ⟨_, rfl, trivial, rfl⟩
  sole := by
    rintro x ⟨o, ho, hb⟩
    change heapOf _ x = some o at ho
    unfold heapOf at ho
    match x, ho with
    | 0, ho => rfl
    | 1, ho => cases ho; simp [nexts, wired, Op.newAdd] at hb
    | 2, ho => cases ho; simp [nexts, wired, Op.newScale] at hb
    | 3, ho => cases ho; simp [nexts, Op.newBinary] at hb
    | n + 4, ho => simp at ho
  once := by
    intro p'
    change (match Map.find? ([(o1, [⟨1, i1⟩, ⟨2, i1⟩])] : Map (List Conn)) p' with | none => [] | some cs => cs).filter _ = _
    rw [Map.find?_cons]
    by_cases h : p' = o1
    · subst h
      rw [if_pos rfl, if_pos rfl]
      rfl
    · rw [if_neg h, if_neg (fun e => h e.symm)]
      rfl
  noBack := diamond_acyclic f 0

theorem emittedOn_map (q : Str) (g : Msg V → Msg V) (ms : List (Msg V)) : ∀ h, emittedOn q (answers (fun _ m => [(q, [g m])]) h ms) = ms.map g := by
  induction ms with
  | nil => intro h; rfl
  | cons m ms ih =>
    intro h
    unfold emittedOn at *
    rw [answers, List.flatMap_cons, ih]
    simp [msgsOn, Map.find?]

/-- Whatever is fed to the diamond, in whatever batches, the reports list the values plus one for the operator "b". -/
example (f : Map (List Str)) (fuel : Nat) (mss : List (List (Msg ℚ))) (rs P')
    (h : debugRun fuel (mss.map fun ms => [(i1, ms)]) (diamond f) = .ok rs P') :
    (rs.flatMap fun r => listed r [98] o1) = mss.flatten.map fun m => ⟨m.time, m.value + 1⟩ := by
  have hy : Yields (diamond f).st.heap 0 i1 mss.flatten 1 o1 (mss.flatten.map fun m => ⟨m.time, m.value + 1⟩) := by
    have h0 := Yields.entry (h := (diamond f).st.heap) (entry := 0) (input := mss.flatten) o1 rfl ((C09_identity [97]).wired [(o1, [⟨1, i1⟩, ⟨2, i1⟩])])
    have h1 := Yields.next o1 h0 (diamond_wire f) rfl ((C09_add [98] 1).wired [(o1, [⟨3, i1⟩])])
    have e : emittedOn o1 (answers (fun _ m => [(o1, [m])]) [] mss.flatten) = mss.flatten := (emittedOn_map o1 id _ []).trans (List.map_id _)
    rw [e, emittedOn_map o1 (fun m => ⟨m.time, m.value +. 1⟩)] at h1
    exact h1
  refine C32_reports (diamond_connected f) (diamond_acyclic f) rfl h hy rfl ?_
  intro x o' ho hid
  change heapOf _ x = some o' at ho
  unfold heapOf at ho
  match x, ho with
  | 0, ho => cases ho; exact absurd hid (by decide)
  | 1, ho => rfl
  | 2, ho => cases ho; exact absurd hid (by decide)
  | 3, ho => cases ho; exact absurd hid (by decide)
  | n + 4, ho => simp at ho

/-- Such calls do succeed. -/
example : (reportOf (debugRun 9 [[(i1, [⟨1, 5⟩, ⟨2, 7⟩])], [(i1, [⟨3, 1⟩])]] (diamond []))).isSome = true := by decide +kernel

end Rtbot
