import Verif.Lemmas.PortPipes
import Verif.Props.Wrap
import Verif.Props.Create

set_option linter.unusedSectionVars false

/-! # C34: created programs, with pipelines -/

namespace Rtbot
variable {V : Type} [Num V]
open Spec

/-- C34: every connection of a created program, also inside pipelines, leads from an existing output port to an existing input port. -/
theorem C34_created_conns {junk : Junk V} {json : Str} {j : Json V} {P : Prog V} (h : Prog.initWith junk json j = .ok P) : ConnsOK P.st.heap := by
  rcases initWith_orderly h with rfl | ⟨m, h1, h2, _⟩
  · intro a o ho; cases ho
  · rw [h2]; exact h1.conns

/-- No inner operator that a pipeline hands messages to has a colon in its name. -/
def Spec.PlainPipes (h : Nat → Option (Op V)) : Prop :=
  ∀ a o ins outs pm, h a = some o → o.kind = .pipeline ins outs pm → ∀ k ∈ ins.keys, k.count 58 = 1

theorem ports_of_bare {o : Op V} (h : Made (bare o)) (hs : Simple o) : PortsOK o := by
  cases h with
  | built h =>
    have hc : Connected o := ⟨_, o.core.outputs, h, rfl⟩
    exact hc.parts.2.1
  | pipe _ hk => exact absurd hk (simple_not_pipe (o := o) hs)

theorem grid_of_created {junk : Junk V} {json : Str} {j : Json V} {P : Prog V} (h : Prog.initWith junk json j = .ok P) (hn : PlainPipes P.st.heap) :
    Grid P.st.heap := by
  rcases initWith_orderly h with rfl | ⟨m, h1, h2, _⟩
  · exact ⟨fun _ _ h => (by cases h), fun _ _ h => (by cases h), fun _ _ h => (by cases h), fun _ _ h => (by cases h), fun _ _ h => (by cases h),
      fun _ _ h => (by cases h)⟩
  have hmade : ∀ a o, P.st.heap a = some o → Made (bare o) := by rw [h2]; exact h1.made
  have hexp : ∀ a o ins outs pm, P.st.heap a = some o → o.kind = .pipeline ins outs pm → ∃ tbl, Exposes tbl P.st.heap o ins outs pm := by
    intro a o ins outs pm ho hk
    rcases initWith_wired h with rfl | ⟨_, _, _, _, _, _, _, _, _, _, _, hp⟩
    · cases ho
    · obtain ⟨tbl, h3, _⟩ := hp a o ins outs pm (Nat.zero_le _) ho hk
      exact ⟨tbl, h3⟩
  refine ⟨fun b o ho => ⟨(hmade b o ho).begun.data, (hmade b o ho).begun.ctrl⟩, fun b o ho hs => ports_of_bare (hmade b o ho) hs,
    fun b o ho => (hmade b o ho).whole, fun b o ho ins outs pm hk p hp => ?_, fun b o ho ins outs pm hk => ?_, fun b o ho ins outs pm hk key hkey => ?_⟩
  · obtain ⟨tbl, e⟩ := hexp b o ins outs pm ho hk
    obtain ⟨n, hlt, rfl⟩ := (e.dataIn p).1 ((Map.has_iff _ _).1 hp)
    refine ⟨by simp [iPort], ins.keys[n], ?_⟩
    have hpm := e.mapIn n _ (List.getElem?_eq_getElem hlt)
    have hmem : ins.keys[n] ∈ ins.keys := List.getElem_mem hlt
    obtain ⟨t, ht⟩ := has_find ((Map.has_iff _ _).2 hmem)
    obtain ⟨id, q, hk1, _, ⟨ot, hot, hq⟩, _⟩ := (e.inputs _ _).1 ht
    refine ⟨t, ot, hpm, ht, hot, ?_⟩
    have := oneColon (hn b o ins outs pm ho hk _ hmem) hk1
    rw [hk1, split2_portName this.1]
    exact (Map.has_iff _ _).2 hq
  · obtain ⟨tbl, e⟩ := hexp b o ins outs pm ho hk
    exact e.ctrlIn
  · obtain ⟨tbl, e⟩ := hexp b o ins outs pm ho hk
    obtain ⟨n, hlt, hn'⟩ := List.getElem_of_mem ((Map.has_iff _ _).1 hkey)
    refine ⟨oPort (n + 1), e.mapOut n key (by rw [List.getElem?_eq_getElem hlt, hn']), (e.outIds _).2 ⟨n, hlt, rfl⟩⟩

theorem calm_start {junk : Junk V} {json : Str} {j : Json V} {P : Prog V} (h : Prog.initWith junk json j = .ok P) : Placid P.st.heap P.st := by
  refine ⟨.refl _, fun b o ho _ => ⟨o, [], ho, rfl⟩, fun b o ho ins outs pm hk k hkm => ?_⟩
  rcases initWith_orderly h with rfl | ⟨m, h1, h2, _⟩
  · cases ho
  · have := (h1.made b o (by rw [h2] at ho; exact ho)).begun.idle
    have : o.core.toProcess = [] := this
    rw [this] at hkm; cases hkm

theorem history_calm {h0 : Nat → Option (Op V)} (hg : Grid h0) (fuel : Nat) (calls : List (OpMsg V)) : ∀ {P : Prog V}, Placid h0 P.st →
    Placid h0 (history fuel calls P).st ∧ (history fuel calls P).ops = P.ops ∧ (history fuel calls P).entry = P.entry := by
  induction calls with
  | nil => intro P h; exact ⟨h, rfl, rfl⟩
  | cons m calls ih =>
    intro P h
    have hc : Placid h0 (P.receiveDebug fuel m).state.st := by
      unfold Prog.receiveDebug
      split
      · exact h
      · rename_i a _
        have := (pp_feedAll (g := False) hg fuel a m (fun h => h.elim) P.st h).1
        split <;> (rename_i hx; rw [hx] at this; exact this)
    obtain ⟨h1, h2, h3⟩ := ih hc
    obtain ⟨_, e1, e2, _⟩ := receiveDebug_frame (fuel := fuel) (P := P) (msgs := m)
    exact ⟨h1, h2.trans e1, h3.trans e2⟩

/-- C34: whatever has been sent to a created program before, a call whose messages name data ports of the entry operator ends neither with a
"non existing port" error nor with a port missing from the table of a pipeline: it ends with `out_of_range` only when a simple operator throws that
by itself.

Missing: inner operators of pipelines with a colon in their names; `C34_colon_violated`. -/
theorem C34_created_partial {junk : Junk V} {json : Str} {j : Json V} {P : Prog V} (h : Prog.initWith junk json j = .ok P) (hn : PlainPipes P.st.heap)
    (fuel : Nat) (calls : List (OpMsg V)) (msgs : OpMsg V)
    (hm : ∀ a o, P.ops.find? P.entry = some a → P.st.heap a = some o → ∀ q ∈ msgs.keys, q ∈ o.core.dataIn.keys) (P' : Prog V) :
    ((history fuel calls P).receiveDebug fuel msgs ≠ .err (.exc .badPort) P' ∧ (history fuel calls P).receive fuel msgs ≠ .err (.exc .badPort) P') ∧
    ((history fuel calls P).receiveDebug fuel msgs = .err (.exc .outOfRange) P' ∨ (history fuel calls P).receive fuel msgs = .err (.exc .outOfRange) P' →
      Loose P.st.heap) := by
  have hg := grid_of_created h hn
  have key : ∀ e P', (history fuel calls P).receiveDebug fuel msgs = .err e P' → Fair P.st.heap e := by
    intro e P' hc
    rcases C46_entry_partial h with rfl | ⟨_, _, a, o, ha, ho, _⟩
    · have : history fuel calls (Prog.empty json : Prog V) = Prog.empty json := by
        unfold history
        clear hc hm
        induction calls with
        | nil => rfl
        | cons c calls ih => exact ih
      rw [this] at hc
      cases hc
      exact ⟨(fun h => by cases h), (fun h => by cases h)⟩
    · obtain ⟨h1, h2, h3⟩ := history_calm hg fuel calls (calm_start h)
      unfold Prog.receiveDebug at hc
      rw [h2, h3, ha] at hc
      dsimp only at hc
      have := (pp_feedAll (g := True) hg fuel a msgs (fun _ => ⟨o, ho, fun p hp => (Map.has_iff _ _).2 (hm a o ha ho p hp)⟩) _ h1).2
      cases hx : feedAll fuel a msgs (history fuel calls P).st with
      | ok r s => rw [hx] at hc; cases hc
      | err e' s =>
        rw [hx] at hc
        simp only [Res.err.injEq] at hc
        rw [hc.1] at hx
        exact this _ _ hx trivial
  have key' : ∀ e P', (history fuel calls P).receive fuel msgs = .err e P' → Fair P.st.heap e := by
    intro e P' hc
    unfold Prog.receive at hc
    cases hx : (history fuel calls P).receiveDebug fuel msgs with
    | ok r s => rw [hx] at hc; cases hc
    | err e' s =>
      rw [hx] at hc
      simp only [Res.err.injEq] at hc
      rw [hc.1] at hx
      exact key _ _ hx
  refine ⟨⟨fun hc => (key _ _ hc).1 rfl, fun hc => (key' _ _ hc).1 rfl⟩, ?_⟩
  rintro (hc | hc)
  · exact (key _ _ hc).2 rfl
  · exact (key' _ _ hc).2 rfl

/-! ### Cases -/

theorem wrapped_plain : ∃ P, Prog.initWith (fun _ => (0, 0)) [] wrapped = .ok P ∧ PlainPipes P.st.heap ∧ P.ops.find? P.entry = some 0 ∧
    P.st.heap 0 = some { (Op.newIdentity b!"in") with core := { (Op.newIdentity b!"in").core with outputs := [(o1, [⟨3, i1⟩, ⟨3, i2⟩])] } } := by
  refine ⟨_, rfl, ?_, rfl, rfl⟩
  intro a o ins outs pm ho hk
  match a, ho with
  | 0, ho => cases ho; cases hk
  | 1, ho => cases ho; cases hk
  | 2, ho => cases ho; cases hk
  | 3, ho => cases ho; cases hk; decide
  | 4, ho => cases ho; cases hk
  | n + 5, ho => cases ho

/-- A program with a pipeline, after a call naming a port that does not exist, answers on its port without that error. -/
example (P' : Prog Int64) (ms : List (Msg Int64)) : ∃ P, Prog.initWith (fun _ => (0, 0)) [] wrapped = .ok P ∧
    (history 20 [[(b!"x", [⟨1, 1⟩])], [(i1, [⟨1, 5⟩])]] P).receive 20 [(i1, ms)] ≠ .err (.exc .badPort) P' := by
  obtain ⟨P, h, hp, he, h0⟩ := wrapped_plain
  refine ⟨P, h, (C34_created_partial h hp 20 _ _ ?_ P').1.2⟩
  intro a o ha ho q hq
  rw [he] at ha
  cases ha
  rw [h0] at ho
  cases ho
  exact hq

/-- Any messages on the port of a program without pipelines are handled without that error. -/
example (junk : Junk Int64) (P P' : Prog Int64) (h : Prog.initWith junk [] someDescription = .ok P) (ms : List (Msg Int64)) :
    (history 9 [[(b!"x", [⟨1, 1⟩])]] P).receive 9 [(i1, ms)] ≠ .err (.exc .badPort) P' := by
  refine (C34_created_partial h ?_ 9 _ _ ?_ P').1.2
  · cases h
    intro a o ins outs pm ho hk
    match a, ho with
    | 0, ho => cases ho; cases hk
    | 1, ho => cases ho; cases hk
    | 2, ho => cases ho; cases hk
    | n + 3, ho => cases ho
  obtain ⟨P0, h0, h1, h2, _⟩ := someDescription_created junk
  rw [h] at h0
  cases h0
  intro a o ha ho q hq
  rw [h1, h2] at ha
  cases ha
  cases h
  cases ho
  exact hq

end Rtbot
