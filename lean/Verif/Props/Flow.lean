import Verif.Lemmas.Flow
import Verif.Props.Times

/-! # C83: what a program reports comes from what it was given

Nothing is assumed about the graph: cycles, several connections into one port, Composites and Pipelines are allowed, and so are calls that fail. -/

namespace Rtbot
variable {V : Type} [Num V]
open Spec Flow

/-- C83: a property of messages that every operator of a program passes on from what it is handed to what it returns is passed on by the program: when all messages given by a
sequence of calls (successful or not) have it, so has everything listed in the reports, and everything the operators emit and receive meanwhile. -/
theorem C83_kept {T : Msg V → Prop} {P : Prog V} (hops : ∀ b o, P.st.heap b = some o → Simple o → Connected o ∧ Obeys T o) (fuel : Nat) (cs : List (Feed V))
    (hT : ∀ m, GivenBy cs m → T m) :
    (∀ r, .ok r ∈ replies fuel P cs → ∀ m, InReport r m → T m) ∧ ∃ evs, (afterCalls fuel P cs).st.log = P.st.log ++ evs ∧ ∀ e ∈ evs, EvIn T e := by
  have hs : Calmly T (fun b => ∃ o, P.st.heap b = some o ∧ ¬ Simple o) P.st := by
    intro b o ho
    refine ⟨fun ⟨o', ho', hn⟩ => ?_, fun hn => ?_⟩
    · rw [ho] at ho'; cases ho'; exact hn
    · have hsim : Simple o := by
        by_contra h; exact hn ⟨o, ho, h⟩
      obtain ⟨h1, h2⟩ := hops b o ho hsim
      exact ⟨hsim, h1.parts.2.2, Spec.Obeys.keeps h2 h1.parts.2.1 h1.parts.2.2⟩
  obtain ⟨_, h2, h3⟩ := after_flows fuel cs P hs fun c hc e he m hm => hT m ⟨c, hc, e, he, hm⟩
  exact ⟨fun r hr m ⟨e, he, f, hf, hm⟩ => h3 r hr e he f hf m hm, h2⟩

theorem replies_last (fuel : Nat) (c : Feed V) {r : ProgMsg V} {P' : Prog V} : ∀ (cs : List (Feed V)) {P : Prog V}, c.on fuel (afterCalls fuel P cs) = .ok r P' →
    .ok r ∈ replies fuel P (cs ++ [c])
  | [], P, h => by
    change .ok r ∈ replies fuel P [c]
    rw [replies]
    rw [afterCalls] at h
    rw [h]
    exact List.mem_cons_self
  | d :: cs, P, h => by
    rw [afterCalls] at h
    rw [List.cons_append, replies]
    split at h
    · exact List.mem_cons_of_mem _ (replies_last fuel c cs h)
    · exact List.mem_cons_of_mem _ (replies_last fuel c cs h)

theorem obeys_connected {T : Msg V → Prop} {o : Op V} (hc : Connected o) (h : ∀ o0, Built o0 → o0.kind = o.kind → Obeys T o0) : Obeys T o := by
  obtain ⟨o0, outs, hb, rfl⟩ := hc
  intro as has q m hm
  have := results_wired outs as o0
  unfold wired at this
  rw [this] at hm
  exact h o0 hb rfl as has q m hm

/-- C83: in a program without TimeShift, Difference and resamplers (inside of Composites and Pipelines as well), every message in the report of a call has exactly the time of one of
the messages given by this call or an earlier one. -/
theorem C83_times {P P' : Prog V} (hops : ∀ b o, P.st.heap b = some o → Simple o → Connected o ∧ ¬ OwnTimes o.kind) (fuel : Nat) (cs : List (Feed V)) (c : Feed V)
    {r : ProgMsg V} (h : c.on fuel (afterCalls fuel P cs) = .ok r P') {m : Msg V} (hm : InReport r m) : ∃ m', GivenBy (cs ++ [c]) m' ∧ m'.time = m.time := by
  refine (C83_kept (T := fun m => ∃ m', GivenBy (cs ++ [c]) m' ∧ m'.time = m.time) (fun b o ho hs => ?_) fuel (cs ++ [c]) fun m hm => ⟨m, hm, rfl⟩).1 r (replies_last fuel c cs h) m hm
  obtain ⟨h1, h2⟩ := hops b o ho hs
  refine ⟨h1, obeys_connected h1 fun o0 hb hk as has q m hm => ?_⟩
  obtain ⟨x, p, hx, hg⟩ := C53_times hb (by rw [hk]; exact h2) as q m hm
  obtain ⟨m', h3, h4⟩ := has p x hg
  exact ⟨m', h3, h4.trans hx⟩

/-- C83: with ConstantResamplers, and Differences that use the time of the newer message, provided times survive the conversion to a value (as they do in exact arithmetic), no message in
the report of a call is later than all the messages given so far. -/
theorem C83_causality {P P' : Prog V} (hops : ∀ b o, P.st.heap b = some o → Simple o → Connected o ∧ (¬ OwnTimes o.kind ∨ (∃ dt t e v, o.kind = .constRes dt t e v) ∨
      (o.kind = .difference true ∧ ∀ t t', toTimeE (V := V) (ofTime t) = .ok t' → t' ≤ t))) (fuel : Nat) (cs : List (Feed V)) (c : Feed V)
    {r : ProgMsg V} (h : c.on fuel (afterCalls fuel P cs) = .ok r P') {m : Msg V} (hm : InReport r m) : ∃ m', GivenBy (cs ++ [c]) m' ∧ m.time ≤ m'.time := by
  refine (C83_kept (T := fun m => ∃ m', GivenBy (cs ++ [c]) m' ∧ m.time ≤ m'.time) (fun b o ho hs => ?_) fuel (cs ++ [c]) fun m hm => ⟨m, hm, UInt64.le_refl _⟩).1 r
    (replies_last fuel c cs h) m hm
  obtain ⟨h1, h2⟩ := hops b o ho hs
  refine ⟨h1, obeys_connected h1 fun o0 hb hk as has q m hm => ?_⟩
  have hlate : ∃ t, Given as t ∧ m.time ≤ t := by
    rw [← hk] at h2
    rcases h2 with h2 | ⟨dt, t, e, v, h2⟩ | ⟨h2, hconv⟩
    · exact ⟨_, C53_times hb h2 as q m hm, UInt64.le_refl _⟩
    · exact C53_causality_partial hb as (fun _ _ h => by rw [h2] at h; cases h) (fun h => by rw [h2] at h; cases h) (fun h => by rw [h2] at h; cases h)
        (fun _ _ h => by rw [h2] at h; cases h) (fun _ _ _ h => by rw [h2] at h; cases h) q m hm
    · cases hb with
      | difference id b => cases h2; exact C53_difference id as (fun t _ t' => hconv t t') q m hm
      | input h => unfold Op.newInput at h; obtain ⟨⟨c, pm⟩, _, h⟩ := bind_eq_ok.1 h; cases h; cases h2
      | output h => unfold Op.newOutput at h; obtain ⟨⟨c, pm⟩, _, h⟩ := bind_eq_ok.1 h; cases h; cases h2
      | join h =>
        unfold Op.newJoin at h
        split at h
        · cases h
        · obtain ⟨⟨c, pm⟩, _, h⟩ := bind_eq_ok.1 h; cases h; cases h2
      | linear h =>
        unfold Op.newLinear at h
        split at h
        · cases h
        · obtain ⟨⟨c, pm⟩, _, h⟩ := bind_eq_ok.1 h; cases h; cases h2
      | demux h =>
        unfold Op.newDemux at h
        split at h
        · cases h
        · obtain ⟨⟨c, pm⟩, _, h⟩ := bind_eq_ok.1 h
          obtain ⟨c', _, h⟩ := bind_eq_ok.1 h
          cases h; cases h2
      | constRes h =>
        unfold Op.newConstRes at h
        split at h
        · cases h
        · cases h; cases h2
      | function h =>
        unfold Op.newFunction at h
        split at h
        · cases h
        · split at h
          · cases h
          · cases h; cases h2
      | _ => cases h2
  obtain ⟨t, ⟨x, p, rfl, hg⟩, hle⟩ := hlate
  obtain ⟨m', h3, h4⟩ := has p x hg
  exact ⟨m', h3, UInt64.le_trans hle h4⟩

/-! ### Concrete cases -/

/-- A Pipeline around an operator that adds 1: a → p(b) → c (only values below 3) → p. The loop goes through the Pipeline. -/
def loopThrough : Prog ℚ :=
  progOf [wired (Op.newIdentity b!"a") [(o1, [⟨1, i1⟩])],
    ⟨{ id := b!"p", dataIn := [(i1, Inp.new i1 0)], ctrlIn := [], outIds := [o1], outputs := [(o1, [⟨3, i1⟩])], toProcess := [] },
      .pipeline [(b!"b:i1", 2)] [(b!"b:o1", 2)] [(b!"b:i1", i1), (b!"b:o1", o1), (i1, b!"b:i1"), (o1, b!"b:o1")]⟩,
    Op.newAdd b!"b" 1,
    wired (Op.newFilter b!"c" .lessThan 3) [(o1, [⟨1, i1⟩])]] []

theorem loopThrough_ops : ∀ b o, loopThrough.st.heap b = some o → Simple o → Connected o ∧ ¬ OwnTimes o.kind := by
  intro b o ho hs
  match b, ho with
  | 0, ho => cases ho; exact ⟨⟨_, _, .identity b!"a", rfl⟩, fun h => h⟩
  | 1, ho => cases ho; exact hs.elim
  | 2, ho => cases ho; exact ⟨⟨_, [], .add b!"b" 1, rfl⟩, fun h => h⟩
  | 3, ho => cases ho; exact ⟨⟨_, _, .filter b!"c" .lessThan 3, rfl⟩, fun h => h⟩
  | b + 4, ho => cases ho

/-- The first call goes around the loop twice, the second fails (there is no port "x"), the third succeeds. -/
example : (replies 20 loopThrough [.receive [(i1, [⟨4, 0⟩])], .receive [(b!"x", [⟨5, 0⟩])], .receive [(i1, [⟨7, 1⟩])]]).map (fun
      | .ok r => some r
      | .error _ => none) =
    [some [(b!"a", [(o1, [⟨4, 0⟩])]), (b!"c", [(o1, [⟨4, 1⟩, ⟨4, 2⟩])]), (b!"p", [(o1, [⟨4, 1⟩, ⟨4, 2⟩, ⟨4, 3⟩])])], none,
      some [(b!"a", [(o1, [⟨7, 1⟩])]), (b!"c", [(o1, [⟨7, 2⟩])]), (b!"p", [(o1, [⟨7, 2⟩, ⟨7, 3⟩])])]] := by
  decide +kernel

/-- TimeShift is left out for a reason: it reports times that were not given. -/
example : reportOf ((progOf [Op.newTimeShift b!"a" 5 2] [] : Prog ℚ).receiveDebug 9 [(i1, [⟨1, 100⟩])]) = some [(b!"a", [(o1, [⟨11, 100⟩])])] := by
  decide +kernel

end Rtbot
