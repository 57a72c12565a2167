import Verif.Lemmas.CopyMade
import Verif.Lemmas.Describe
import Verif.Props.Getters

/-! # C96: what a program does depends only on the operators downstream of its entry -/

namespace Rtbot
variable {V : Type} [Num V]
open Spec

namespace Copy
variable {φ : Nat → Nat} {S : Nat → Prop}

/-- Two programs of which the second contains a copy of the part that the first one uses. -/
structure Alike (φ : Nat → Nat) (S : Nat → Prop) (a : Nat) (P Q : Prog V) : Prop where
  ok : Ok φ S P.st Q.st
  inside : S a
  entry : P.ops.find? P.entry = some a
  entry' : Q.ops.find? Q.entry = some (φ a)

theorem receiveDebug_alike {a : Nat} {P Q : Prog V} (h : Alike φ S a P Q) (fuel : Nat) (msgs : OpMsg V) :
    answer (P.receiveDebug fuel msgs) = answer (Q.receiveDebug fuel msgs) ∧ Alike φ S a (P.receiveDebug fuel msgs).state (Q.receiveDebug fuel msgs).state ∧
      (P.receiveDebug fuel msgs).state.filter = P.filter ∧ (Q.receiveDebug fuel msgs).state.filter = Q.filter := by
  have := feedAll_mv fuel h.inside msgs _ _ h.ok
  unfold Prog.receiveDebug
  rw [h.entry, h.entry']
  dsimp only
  cases hx : feedAll fuel a msgs P.st <;> cases hy : feedAll fuel (φ a) msgs Q.st <;> rw [hx, hy] at this <;> first | exact this.elim | skip
  · exact ⟨congrArg Except.ok this.1, ⟨this.2, h.inside, h.entry, h.entry'⟩, rfl, rfl⟩
  · exact ⟨congrArg Except.error this.1, ⟨this.2, h.inside, h.entry, h.entry'⟩, rfl, rfl⟩

theorem debugRun_alike {a : Nat} (fuel : Nat) (calls : List (OpMsg V)) : ∀ {P Q : Prog V}, Alike φ S a P Q → answer (debugRun fuel calls P) = answer (debugRun fuel calls Q) := by
  induction calls with
  | nil => intro P Q _; rfl
  | cons msgs calls ih =>
    intro P Q h
    obtain ⟨h1, h2, _⟩ := receiveDebug_alike h fuel msgs
    unfold debugRun
    cases hx : P.receiveDebug fuel msgs <;> cases hy : Q.receiveDebug fuel msgs <;> rw [hx, hy] at h1 h2 <;> cases h1
    · have := ih h2
      dsimp only [Res.state] at this ⊢
      revert this
      cases debugRun fuel calls _ <;> cases debugRun fuel calls _ <;> intro this <;> cases this <;> rfl
    · rfl

theorem receiveRun_alike {a : Nat} (fuel : Nat) (calls : List (OpMsg V)) : ∀ {P Q : Prog V}, Alike φ S a P Q → P.filter = Q.filter →
    answer (receiveRun fuel calls P) = answer (receiveRun fuel calls Q) := by
  induction calls with
  | nil => intro P Q _ _; rfl
  | cons msgs calls ih =>
    intro P Q h hf
    obtain ⟨h1, h2, h3, h4⟩ := receiveDebug_alike h fuel msgs
    unfold receiveRun Prog.receive
    cases hx : P.receiveDebug fuel msgs <;> cases hy : Q.receiveDebug fuel msgs <;> rw [hx, hy] at h1 h2 <;> rw [hx] at h3 <;> rw [hy] at h4 <;> cases h1
    · dsimp only [Res.state] at h2 h3 h4 ⊢
      rw [h3, h4, hf]
      have := ih h2 (by rw [h3, h4, hf])
      revert this
      cases receiveRun fuel calls _ <;> cases receiveRun fuel calls _ <;> intro this <;> cases this <;> rfl
    · rfl

end Copy

/-- C96: two programs of which the second contains, at any addresses, the operators that are downstream of the entry of the first, and has the same entry, answer every sequence of calls in the same
way, whatever else they contain. -/
theorem C96_copy {φ : Nat → Nat} {S : Nat → Prop} {P Q : Prog V} {a : Nat} (hc : Contains φ S P.st.heap Q.st.heap) (hw : ∀ b o, S b → P.st.heap b = some o → o.core.WF) (ha : S a)
    (he : P.ops.find? P.entry = some a) (he' : Q.ops.find? Q.entry = some (φ a)) (fuel : Nat) (calls : List (OpMsg V)) :
    answer (debugRun fuel calls P) = answer (debugRun fuel calls Q) ∧ (P.filter = Q.filter → answer (receiveRun fuel calls P) = answer (receiveRun fuel calls Q)) :=
  have h : Copy.Alike φ S a P Q := ⟨⟨hc, hw⟩, ha, he, he'⟩
  ⟨Copy.debugRun_alike fuel calls h, Copy.receiveRun_alike fuel calls h⟩

/-- The descriptions have the same entry; the second lists the operators of the first, in any order and among others; the second has the connections of the first in the same order, and further
ones that do not come from operators of the first. -/
structure Spec.Enlarged (j j' : Json V) : Prop where
  entry : ∀ e, Member j b!"entryOperator" e ↔ Member j' b!"entryOperator" e
  operators : ∀ os os', Member j b!"operators" os → Member j' b!"operators" os' → (∀ x ∈ os.items, x ∈ os'.items) ∧ DistinctIds os'.items
  connections : ∀ os cs cs', Member j b!"operators" os → Member j b!"connections" cs → Member j' b!"connections" cs' → Inserted (FromElsewhere os.items) cs.items cs'.items

theorem Copy.empty_run (json : Str) (fuel : Nat) : ∀ calls : List (OpMsg V), answer (debugRun fuel calls (Prog.empty json)) = answer (debugRun fuel calls (Prog.empty [])) ∧
    answer (receiveRun fuel calls (Prog.empty json)) = answer (receiveRun fuel calls (Prog.empty [])) := by
  intro calls
  cases calls <;> exact ⟨rfl, rfl⟩

/-- C96: operators that are added to a description, among the others, in any order, and connected to these only by connections from the added ones, change nothing in the answers of the program.
The memory in which the programs are created may hold any value as long as it is the same for all operators; pipelines are not covered. -/
theorem C96_created {junk junk' : Junk V} (hj : ∀ a b, junk a = junk' b) {json json' : Str} {j j' : Json V} {P Q : Prog V} (hl : Enlarged j j') (hf : Flat j) (hf' : Flat j')
    (h : Prog.initWith junk json j = .ok P) (h' : Prog.initWith junk' json' j' = .ok Q) (fuel : Nat) (calls : List (OpMsg V)) :
    answer (debugRun fuel calls P) = answer (debugRun fuel calls Q) ∧ (P.filter = Q.filter → answer (receiveRun fuel calls P) = answer (receiveRun fuel calls Q)) := by
  have hwf := created_wf h
  obtain ⟨entry, os, ops, m, cs, n, a, o, h1, h2, hos, hb, hcs, hc, ha, ho, h⟩ := initWith_ok h
  obtain ⟨entry', os', ops', m', cs', n', a', o', h1', h2', hos', hb', hcs', hc', ha', ho', h'⟩ := initWith_ok h'
  obtain ⟨k1, k2⟩ := hl.operators os os' hos hos'
  have hal := Copy.start_along hj k1 k2 (hf os hos) (hf' os' hos') hb hb'
  have hal := Copy.makeConns_along (hl.connections os cs cs' hos hcs hcs') (fun c he x hx => by
    cases hfind : ops.find? x.from' with
    | none => rfl
    | some b =>
      have hh : ops.has x.from' = true := by unfold Map.has; rw [hfind]; rfl
      rcases buildOps_ids os.items hb _ hh with hc | ⟨y, hy, hyid⟩
      · cases hc
      · exact absurd hyid (he _ (readConn_ok hx).1 y hy)) hal hc hc'
  have hentry : entry' = entry := by
    rcases value_ok h1 with ⟨x, hx, hg⟩ | ⟨_, e⟩
    · rcases value_ok h1' with ⟨y, hy, hg'⟩ | ⟨_, e⟩
      · have := ((hl.entry x).1 hx).unique hy
        subst this
        rw [hg] at hg'
        cases hg'
        rfl
      · exact absurd e h2'
    · exact absurd e h2
  subst hentry
  have hh := hal.names _ _ ha
  rw [ha'] at hh
  cases hh
  obtain ⟨p, hp, hp'⟩ := hal.sub.ops a ⟨o, ho⟩
  rw [ho] at hp
  cases hp
  rw [ho'] at hp'
  cases hp'
  rcases h with ⟨hctrl, rfl⟩ | ⟨hctrl, rfl⟩ <;> rcases h' with ⟨hctrl', rfl⟩ | ⟨hctrl', rfl⟩
  · exact C96_copy (φ := Copy.placed m.heap ops') hal.sub (fun b o _ hb => hwf b o hb) ⟨o, ho⟩ ha ha' fuel calls
  · exact absurd hctrl hctrl'
  · exact absurd hctrl' hctrl
  · obtain ⟨e1, e2⟩ := Copy.empty_run (V := V) json fuel calls
    obtain ⟨e3, e4⟩ := Copy.empty_run (V := V) json' fuel calls
    exact ⟨e1.trans e3.symm, fun _ => e2.trans e4.symm⟩

theorem Copy.inserted_refl {α : Type} {other : α → Prop} : ∀ l : List α, Inserted other l l
  | [] => .nil
  | _ :: l => .keep (Copy.inserted_refl l)

/-- C96: the order in which a description lists the operators does not matter. -/
theorem C96_reordered {junk junk' : Junk V} (hj : ∀ a b, junk a = junk' b) {json json' : Str} {j j' e cs : Json V} {xs ys : List (Json V)} {P Q : Prog V}
    (he : Member j b!"entryOperator" e) (he' : Member j' b!"entryOperator" e) (hx : Member j b!"operators" (.arr xs)) (hy : Member j' b!"operators" (.arr ys))
    (hc : Member j b!"connections" cs) (hc' : Member j' b!"connections" cs) (hp : xs.Perm ys) (hd : DistinctIds xs) (hf : Flat j)
    (h : Prog.initWith junk json j = .ok P) (h' : Prog.initWith junk' json' j' = .ok Q) (fuel : Nat) (calls : List (OpMsg V)) :
    answer (debugRun fuel calls P) = answer (debugRun fuel calls Q) ∧ (P.filter = Q.filter → answer (receiveRun fuel calls P) = answer (receiveRun fuel calls Q)) := by
  refine C96_created hj ⟨fun x => ⟨fun hm => ?_, fun hm => ?_⟩, fun os os' h1 h2 => ?_, fun os ds ds' h1 h2 h3 => ?_⟩ hf (fun os hos x hxm => ?_) h h' fuel calls
  · cases hm.unique he; exact he'
  · cases hm.unique he'; exact he
  · cases h1.unique hx
    cases h2.unique hy
    exact ⟨fun x hxm => hp.subset hxm, hp.pairwise hd (fun {x y} h k h1 h2 => h k h2 h1)⟩
  · cases h2.unique hc
    cases h3.unique hc'
    exact Copy.inserted_refl _
  · cases hos.unique hy
    exact hf _ hx x (hp.symm.subset hxm)

/-! ### Cases -/

namespace Copy

def cIn : Json Int64 := .obj [(b!"id", .str b!"in"), (b!"numPorts", .uint 1), (b!"type", .str b!"Input")]
def cSum : Json Int64 := .obj [(b!"id", .str b!"sum"), (b!"type", .str b!"CumulativeSum")]
def cCount : Json Int64 := .obj [(b!"id", .str b!"count"), (b!"type", .str b!"Count")]
def cOther : Json Int64 := .obj [(b!"id", .str b!"other"), (b!"numPorts", .uint 1), (b!"type", .str b!"Input")]

def wire (a b : Str) : Json Int64 := .obj [(b!"from", .str a), (b!"to", .str b)]

def descr (ops conns : List (Json Int64)) : Json Int64 := .obj [(b!"connections", .arr conns), (b!"entryOperator", .str b!"in"), (b!"operators", .arr ops)]

/-- What a description gives for two calls. -/
def replies (j : Json Int64) : Option (Except Err (List (ProgMsg Int64))) :=
  match Prog.initWith (fun _ => (0, 0)) [] j with
  | .error _ => none
  | .ok P => some (answer (debugRun 9 [[(i1, [⟨1, 5⟩, ⟨2, 6⟩])], [(i1, [⟨2, 7⟩, ⟨4, 8⟩])]] P))

/-- An Input that leads to a sum and a count. -/
def small : Json Int64 := descr [cIn, cSum, cCount] [wire b!"in" b!"sum", wire b!"sum" b!"count"]

/-- The same with the operators listed backwards, and with one more operator that leads to the sum too. -/
def large : Json Int64 := descr [cCount, cOther, cSum, cIn] [wire b!"in" b!"sum", wire b!"other" b!"sum", wire b!"sum" b!"count"]

theorem descr_member {ops conns : List (Json Int64)} {x : Json Int64} : (Member (descr ops conns) b!"connections" x ↔ x = .arr conns) ∧
    (Member (descr ops conns) b!"entryOperator" x ↔ x = .str b!"in") ∧ (Member (descr ops conns) b!"operators" x ↔ x = .arr ops) := by
  have e1 : Member (descr ops conns) b!"connections" (.arr conns) := ⟨_, rfl, rfl⟩
  have e2 : Member (descr ops conns) b!"entryOperator" (.str b!"in") := ⟨_, rfl, rfl⟩
  have e3 : Member (descr ops conns) b!"operators" (.arr ops) := ⟨_, rfl, rfl⟩
  exact ⟨⟨fun h => h.unique e1, fun h => h ▸ e1⟩, ⟨fun h => h.unique e2, fun h => h ▸ e2⟩, ⟨fun h => h.unique e3, fun h => h ▸ e3⟩⟩

theorem id_of {x : Json Int64} {k k' : Str} (h : HasId x k) (h' : HasId x k') : k' = k := by
  have := Spec.Member.unique h h'
  cases this
  rfl

theorem cIn_id : HasId cIn b!"in" := ⟨_, rfl, rfl⟩
theorem cSum_id : HasId cSum b!"sum" := ⟨_, rfl, rfl⟩
theorem cCount_id : HasId cCount b!"count" := ⟨_, rfl, rfl⟩
theorem cOther_id : HasId cOther b!"other" := ⟨_, rfl, rfl⟩

theorem small_large : Enlarged small large := by
  refine ⟨fun e => ?_, fun os os' h1 h2 => ?_, fun os cs cs' h1 h2 h3 => ?_⟩
  · exact descr_member.2.1.trans descr_member.2.1.symm
  · cases descr_member.2.2.1 h1
    cases descr_member.2.2.1 h2
    refine ⟨by simp [Json.items], ?_⟩
    unfold DistinctIds Json.items
    simp only [List.pairwise_cons, List.mem_cons, List.not_mem_nil, or_false, forall_eq_or_imp, forall_eq]
    refine ⟨⟨?_, ?_, ?_⟩, ⟨?_, ?_⟩, ?_, ?_⟩
    · intro k h h'; exact absurd ((id_of cCount_id h).symm.trans (id_of cOther_id h')) (by decide)
    · intro k h h'; exact absurd ((id_of cCount_id h).symm.trans (id_of cSum_id h')) (by decide)
    · intro k h h'; exact absurd ((id_of cCount_id h).symm.trans (id_of cIn_id h')) (by decide)
    · intro k h h'; exact absurd ((id_of cOther_id h).symm.trans (id_of cSum_id h')) (by decide)
    · intro k h h'; exact absurd ((id_of cOther_id h).symm.trans (id_of cIn_id h')) (by decide)
    · intro k h h'; exact absurd ((id_of cSum_id h).symm.trans (id_of cIn_id h')) (by decide)
    · exact ⟨fun _ h => (by cases h), .nil⟩
  · cases descr_member.2.2.1 h1
    cases descr_member.1.1 h2
    cases descr_member.1.1 h3
    refine .keep (.extra ?_ (.keep .nil))
    intro k hk x hx hid
    have : k = b!"other" := by
      have := hk.unique (⟨_, rfl, rfl⟩ : Member (wire b!"other" b!"sum") b!"from" (.str b!"other"))
      cases this
      rfl
    subst this
    simp only [Json.items, List.mem_cons, List.not_mem_nil, or_false] at hx
    rcases hx with rfl | rfl | rfl
    · exact absurd (id_of cIn_id hid) (by decide)
    · exact absurd (id_of cSum_id hid) (by decide)
    · exact absurd (id_of cCount_id hid) (by decide)

end Copy

example : Copy.replies Copy.small = some (.ok [[(b!"count", [(o1, [⟨1, 1⟩, ⟨2, 2⟩])]), (b!"in", [(o1, [⟨1, 5⟩, ⟨2, 6⟩])]), (b!"sum", [(o1, [⟨1, 5⟩, ⟨2, 11⟩])])],
      [(b!"count", [(o1, [⟨4, 3⟩])]), (b!"in", [(o1, [⟨4, 8⟩])]), (b!"sum", [(o1, [⟨4, 19⟩])])]]) ∧
    Copy.replies Copy.large = Copy.replies Copy.small := by
  constructor <;> decide +kernel

/-- C96: the ids have to be distinct. Of two descriptions with one id the first counts, so that there the order does matter. -/
theorem C96_same_id : Copy.replies (Copy.descr [Copy.cIn, .obj [(b!"id", .str b!"x"), (b!"type", .str b!"Count")], .obj [(b!"id", .str b!"x"), (b!"type", .str b!"CumulativeSum")]]
      [Copy.wire b!"in" b!"x"]) ≠
    Copy.replies (Copy.descr [Copy.cIn, .obj [(b!"id", .str b!"x"), (b!"type", .str b!"CumulativeSum")], .obj [(b!"id", .str b!"x"), (b!"type", .str b!"Count")]]
      [Copy.wire b!"in" b!"x"]) := by
  decide +kernel

/-- C96: the added connections have to come from added operators. One from the entry to an added operator shows in the report. -/
theorem C96_from_inside : Copy.replies (Copy.descr [Copy.cIn, Copy.cSum] [Copy.wire b!"in" b!"sum"]) ≠
    Copy.replies (Copy.descr [Copy.cIn, Copy.cSum, Copy.cCount] [Copy.wire b!"in" b!"sum", Copy.wire b!"in" b!"count"]) := by
  decide +kernel

end Rtbot
