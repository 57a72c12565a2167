import Verif.Props.Served
import Verif.Props.Rewire
import Verif.Props.Lockstep
import Verif.Lemmas.Peaks

/-! # C33 for graphs: the order of connecting does not matter where every message is executed before the next -/

namespace Rtbot
open Spec
variable {V : Type} [Num V]

omit [Num V] in
theorem Spec.SameConns.keys {w w' : Map (List Conn)} (h : SameConns w w') : Map.keys w = Map.keys w' := by
  induction h with
  | nil => rfl
  | cons he _ ih => unfold Map.keys at ih ⊢; rw [List.map_cons, List.map_cons, he.1, ih]

theorem Spec.Rewired.mem {h h' : Nat → Option (Op V)} (r : Rewired h h') {a : Nat} {p : Str} {c : Conn} : c ∈ connsOf h a p ↔ c ∈ connsOf h' a p :=
  (r.conns a p).mem_iff

theorem Spec.Rewired.onlyData {h h' : Nat → Option (Op V)} (r : Rewired h h') {b : Nat} (hd : OnlyData h b) : OnlyData h' b := by
  intro a p c hc ht
  obtain ⟨o, h1, h2⟩ := hd a p c (r.mem.2 hc) ht
  obtain ⟨w, h3, _⟩ := r.here h1
  exact ⟨_, h3, h2⟩

theorem Spec.Rewired.plain {P Q : Prog V} (r : Rewired P.st.heap Q.st.heap) {x : Nat} {ox : Op V} (hP : Plain P x ox) (hx : Q.ops.find? Q.entry = some x) :
    ∃ w, Plain Q x (wired ox w) := by
  obtain ⟨w, h1, _⟩ := r.here hP.there
  refine ⟨w, r.connected hP.ops, ?_, r.acyclic hP.acyclic, hx, h1, ⟨?_, ?_, ?_⟩⟩
  · intro b o' ho'
    obtain ⟨w', h2, h3⟩ := r.symm.here ho'
    have h4 := hP.maps b _ h2
    unfold Map.Sorted at h4 ⊢
    rw [h3.keys]
    exact h4
  · exact fun a p c hc => hP.one.entry a p c (r.mem.2 hc)
  · exact fun a p => (r.conns a p).nodup_iff.1 (hP.one.once a p)
  · exact fun a p a' p' c h1 h2 => hP.one.sole a p a' p' c (r.mem.2 h1) (r.mem.2 h2)

theorem Spec.Rewired.streams {h h' : Nat → Option (Op V)} (r : Rewired h h') {x c : Nat} {pc : Str} {input : List (Msg V)} {b : Nat} {p : Str} {ms : List (Msg V)}
    (hs : Streams h x c pc input b p ms) : Streams h' x c pc input b p ms := by
  induction hs with
  | source => exact .source
  | step p' _ hc hd ho hq hf ih =>
    obtain ⟨w, h1, _⟩ := r.here ho
    exact .step p' ih (r.mem.1 hc) (r.onlyData hd) h1 hq (hf.wired w)
  | binary f _ _ hc1 hc2 hd ho hf hs ih1 ih2 =>
    obtain ⟨w, h1, _⟩ := r.here ho
    exact .binary (w := w) f ih1 ih2 (r.mem.1 hc1) (r.mem.1 hc2) (r.onlyData hd) h1 hf hs
  | join _ hc hd hj ho hj1 hj2 ht hk1 hk2 ih =>
    obtain ⟨w, h1, _⟩ := r.here ho
    exact .join (w := w) ih (fun k k1 k2 => r.mem.1 (hc k k1 k2)) (r.onlyData hd) hj h1 hj1 hj2 ht hk1 hk2
  | output _ hc hd hj ho hk1 hk2 ih =>
    obtain ⟨w, h1, _⟩ := r.here ho
    exact .output (w := w) ih (r.mem.1 hc) (r.onlyData hd) hj h1 hk1 hk2

/-- C33 for graphs without cycles in which no port is reached by two connections: whatever the order of connecting, the reports list the same for every operator whose stream is spelled out
by the connections, joins and binary operators included. Missing: graphs with two connections to a port or joins of streams neither of which has all the times of the other; for the former
it fails (`C33_order_violated`). -/
theorem C33_graph_partial {P Q P' Q' : Prog V} {fuel fuel' x : Nat} {ox : Op V} {p0 : Str} {mss : List (List (Msg V))} {rs rs'} (hP : Plain P x ox)
    (r : Rewired P.st.heap Q.st.heap) (hx' : Q.ops.find? Q.entry = some x) (h : debugRun fuel (mss.map fun ms => [(p0, ms)]) P = .ok rs P')
    (h' : debugRun fuel' (mss.map fun ms => [(p0, ms)]) Q = .ok rs' Q') (hord : Ordered P P' ox (mss.map fun ms => [(p0, ms)])) (hord' : Ordered Q Q' ox (mss.map fun ms => [(p0, ms)]))
    {c : Nat} {oc : Op V} {pc : Str} {input : List (Msg V)} (hy : Yields P.st.heap x p0 mss.flatten c pc input) (hoc : P.st.heap c = some oc)
    (huc : ∀ y o', P.st.heap y = some o' → o'.core.id = oc.core.id → y = c) {b : Nat} {p : Str} {ms : List (Msg V)} (hs : Streams P.st.heap x c pc input b p ms) {o : Op V}
    (ho : P.st.heap b = some o) (hu : ∀ y o', P.st.heap y = some o' → o'.core.id = o.core.id → y = b) :
    (rs.flatMap fun r => listed r o.core.id p) = ms ∧ (rs'.flatMap fun r => listed r o.core.id p) = ms := by
  have h1 := C32_reports hP.ops hP.acyclic hP.entry h hy hoc huc
  have hback : ∀ {b : Nat} {id : Str}, (∀ y o', P.st.heap y = some o' → o'.core.id = id → y = b) → ∀ y o', Q.st.heap y = some o' → o'.core.id = id → y = b := by
    intro b id hu y o' ho' hid
    obtain ⟨w', h2, _⟩ := r.symm.here ho'
    exact hu y _ h2 hid
  obtain ⟨wc, hoc', _⟩ := r.here hoc
  obtain ⟨w, ho', _⟩ := r.here ho
  have h2 := C32_reports (o := wired oc wc) (r.connected hP.ops) (r.acyclic hP.acyclic) hx' h' (r.yields hy) hoc' (hback huc)
  obtain ⟨wx, hQ⟩ := r.plain hP hx'
  refine ⟨C90_listed hP h hord hoc huc (h1 ▸ hs) ho hu, ?_⟩
  exact C90_listed (o := wired o w) (oc := wired oc wc) hQ h' ⟨hord'.given, hord'.own⟩ hoc' (hback huc) (by rw [h2]; exact r.streams hs) ho' (hback hu)

/-! ### A case -/

theorem diamond_rewired : Rewired (diamond []).st.heap diamondSwapped.st.heap := by
  intro a
  match a with
  | 0 => exact ⟨_, rfl, .cons ⟨rfl, List.Perm.swap _ _ _⟩ .nil⟩
  | 1 => exact ⟨_, rfl, .cons ⟨rfl, .refl _⟩ .nil⟩
  | 2 => exact ⟨_, rfl, .cons ⟨rfl, .refl _⟩ .nil⟩
  | 3 => exact ⟨_, rfl, .nil⟩
  | n + 4 => trivial

theorem diamond_plain : Plain (diamond []) 0 (wired (Op.newIdentity [97]) [(o1, [⟨1, i1⟩, ⟨2, i1⟩])]) :=
  have h := diamond_driven []
  ⟨h.ops, h.maps, h.acyclic, h.entry, h.there, h.one⟩

/-- Whatever is fed to the diamond in the order of time, in whatever batches, the differences are the same for both orders of connecting. -/
example (fuel fuel' : Nat) (mss : List (List (Msg ℚ))) (hinc : Increasing mss.flatten) (rs P' rs' Q') (h : debugRun fuel (mss.map fun ms => [(i1, ms)]) (diamond []) = .ok rs P')
    (h' : debugRun fuel' (mss.map fun ms => [(i1, ms)]) diamondSwapped = .ok rs' Q') :
    (rs.flatMap fun r => listed r [100] o1) = (mss.flatten.map fun m => ⟨m.time, (m.value + 1) - m.value * 2⟩) ∧
    (rs'.flatMap fun r => listed r [100] o1) = (mss.flatten.map fun m => ⟨m.time, (m.value + 1) - m.value * 2⟩) := by
  have hy : Yields (diamond []).st.heap 0 i1 mss.flatten 0 o1 mss.flatten := by
    have h0 := Yields.entry (h := (diamond []).st.heap) (entry := 0) (input := mss.flatten) o1 rfl ((C09_identity [97]).wired [(o1, [⟨1, i1⟩, ⟨2, i1⟩])])
    rwa [show emittedOn o1 (answers (fun _ m => [(o1, [m])]) [] mss.flatten) = mss.flatten from (emittedOn_map o1 id _ []).trans (List.map_id _)] at h0
  have hd : ∀ b, OnlyData (diamond []).st.heap b := by
    intro b a p c hc ht
    have he := Finite.mem_arrows (l := [wired (Op.newIdentity [97]) [(o1, [⟨1, i1⟩, ⟨2, i1⟩])], wired (Op.newAdd [98] 1) [(o1, [⟨3, i1⟩])],
      wired (Op.newScale [99] 2) [(o1, [⟨3, i2⟩])], Op.newBinary [100] .minus]) hc
    have he : (a, p, c) ∈ [(0, o1, (⟨1, i1⟩ : Conn)), (0, o1, ⟨2, i1⟩), (1, o1, ⟨3, i1⟩), (2, o1, ⟨3, i2⟩)] := he
    simp only [List.mem_cons, List.not_mem_nil, or_false] at he
    rcases he with he | he | he | he <;> cases he <;> cases ht <;> exact ⟨_, rfl, rfl⟩
  have hc : Streams (diamond []).st.heap 0 0 o1 mss.flatten 0 o1 mss.flatten := .source
  have h1 := Streams.step (b := 1) (q := i1) o1 hc (show _ ∈ ([⟨1, i1⟩, ⟨2, i1⟩] : List Conn) by decide) (hd 1) rfl rfl ((C09_add [98] 1).wired [(o1, [⟨3, i1⟩])])
  have h2 := Streams.step (b := 2) (q := i1) o1 hc (show _ ∈ ([⟨1, i1⟩, ⟨2, i1⟩] : List Conn) by decide) (hd 2) rfl rfl ((C09_scale [99] 2).wired [(o1, [⟨3, i2⟩])])
  rw [emittedOn_map o1 (fun m : Msg ℚ => ⟨m.time, m.value +. 1⟩)] at h1
  rw [emittedOn_map o1 (fun m : Msg ℚ => ⟨m.time, m.value *. 2⟩)] at h2
  have ht : TimesIn (mss.flatten.map fun m : Msg ℚ => (⟨m.time, m.value +. 1⟩ : Msg ℚ)) (mss.flatten.map fun m : Msg ℚ => (⟨m.time, m.value *. 2⟩ : Msg ℚ)) := by
    intro y hy
    obtain ⟨m, hm, rfl⟩ := List.mem_map.1 hy
    exact (Peaks.hasTime_iff).2 (List.mem_map.2 ⟨_, List.mem_map.2 ⟨m, hm, rfl⟩, rfl⟩)
  have h3 := Streams.binary (b := 3) (id := [100]) (op := .minus) (w := []) (fun x y => some (x - y)) h1 h2 (show _ ∈ ([⟨3, i1⟩] : List Conn) by decide)
    (show _ ∈ ([⟨3, i2⟩] : List Conn) by decide) (hd 3) rfl (fun _ _ => rfl) (Or.inl ht)
  rw [Trail.matched_images] at h3
  have hv : (mss.flatten.filterMap fun m : Msg ℚ => (some ((m.value +. 1) - (m.value *. 2))).map fun v => (⟨m.time, v⟩ : Msg ℚ)) =
      mss.flatten.map fun m => ⟨m.time, (m.value + 1) - m.value * 2⟩ := by
    rw [List.filterMap_eq_map_iff_forall_eq_some]
    intro m _
    rfl
  rw [hv] at h3
  have hown : ∀ evs b o, diamondSwapped.st.heap b = some o → OrderCond o.kind (actsOf b evs) := by
    intro evs b o ho
    match b, ho with
    | 0, ho | 1, ho | 2, ho | 3, ho => cases ho; trivial
    | b + 4, ho => cases ho
  have hord := fun P' => diamond_ordered [] mss hinc P'
  refine C33_graph_partial diamond_plain diamond_rewired rfl h h' (hord P') ⟨(hord P').given, fun evs _ => hown evs⟩ hy rfl ?_ h3 rfl ?_
  · intro x o' ho hid
    match x, ho with
    | 0, ho => rfl
    | 1, ho => cases ho; exact absurd hid (by decide)
    | 2, ho => cases ho; exact absurd hid (by decide)
    | 3, ho => cases ho; exact absurd hid (by decide)
    | n + 4, ho => cases ho
  · intro x o' ho hid
    match x, ho with
    | 0, ho => cases ho; exact absurd hid (by decide)
    | 1, ho => cases ho; exact absurd hid (by decide)
    | 2, ho => cases ho; exact absurd hid (by decide)
    | 3, ho => rfl
    | n + 4, ho => cases ho

end Rtbot
