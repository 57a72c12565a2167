import Verif.Spec.Lockstep
import Verif.Lemmas.FlowOrder

/-! # Lemmas: programs given by a list of operators

What the theorems about graphs of operators ask for is read off the list of all connections. -/

namespace Rtbot.Finite
open Spec
variable {V : Type}

/-- All connections of the listed operators: address, output port, connection. -/
def arrows (l : List (Op V)) : List (Nat × Str × Conn) := l.zipIdx.flatMap fun x => x.1.core.outputs.flatMap fun e => e.2.map fun c => (x.2, e.1, c)

theorem mem_arrows {l : List (Op V)} {a : Nat} {p : Str} {c : Conn} (h : c ∈ connsOf (heapOf l) a p) : (a, p, c) ∈ arrows l := by
  unfold connsOf heapOf at h
  cases ho : l[a]? with
  | none => rw [ho] at h; cases h
  | some o =>
    rw [ho] at h
    cases hf : o.core.outputs.find? p with
    | none => simp only [hf] at h; cases h
    | some cs =>
      simp only [hf] at h
      unfold arrows
      refine List.mem_flatMap.2 ⟨(o, a), List.mk_mem_zipIdx_iff_getElem?.2 ho, List.mem_flatMap.2 ⟨(p, cs), find?_mem hf, List.mem_map.2 ⟨c, h, rfl⟩⟩⟩

theorem sublist_flatMap {α β : Type} (f : α → List β) {x : α} : ∀ {l : List α}, x ∈ l → (f x).Sublist (l.flatMap f)
  | y :: l, h => by
    rw [List.flatMap_cons]
    rcases List.mem_cons.1 h with rfl | h
    · exact List.sublist_append_left _ _
    · exact (sublist_flatMap f h).trans (List.sublist_append_right _ _)

theorem conns_sublist {l : List (Op V)} {a : Nat} {p : Str} : (connsOf (heapOf l) a p).Sublist ((arrows l).map (·.2.2)) := by
  unfold connsOf heapOf
  cases ho : l[a]? with
  | none => exact List.nil_sublist _
  | some o =>
    simp only
    cases hf : o.core.outputs.find? p with
    | none => exact List.nil_sublist _
    | some cs =>
      have h1 : (cs.map fun c => (a, p, c)).Sublist (arrows l) :=
        (sublist_flatMap (fun e : Str × List Conn => e.2.map fun c => (a, e.1, c)) (find?_mem hf)).trans
          (sublist_flatMap (fun x : Op V × Nat => x.1.core.outputs.flatMap fun e => e.2.map fun c => (x.2, e.1, c)) (List.mk_mem_zipIdx_iff_getElem?.2 ho))
      simpa [List.map_map, Function.comp_def] using h1.map (·.2.2)

theorem oneInto {l : List (Op V)} {x : Nat} (hn : ((arrows l).map (·.2.2)).Nodup) (hx : ∀ e ∈ arrows l, e.2.2.target ≠ x) : OneInto (heapOf l) x where
  entry a p c hc := hx _ (mem_arrows hc)
  once a p := hn.sublist conns_sublist
  sole a p a' p' c h h' := by
    have := List.inj_on_of_nodup_map hn (mem_arrows h) (mem_arrows h') rfl
    cases this
    exact ⟨rfl, rfl⟩

theorem edge_arrow {l : List (Op V)} (hs : ∀ o ∈ l, Simple o) {a b : Nat} (h : Edge (heapOf l) a b) : ∃ e ∈ arrows l, e.1 = a ∧ e.2.2.target = b := by
  obtain ⟨o, ho, hb⟩ := h
  have ho' : l[a]? = some o := ho
  have hsim := hs o (List.mem_of_getElem? ho')
  have hb' : b ∈ o.core.outputs.flatMap fun e => e.2.map Conn.target := by
    unfold nexts at hb
    rcases List.mem_append.1 hb with hb | hb
    · exact hb
    · unfold Simple at hsim
      cases hk : o.kind <;> simp only [hk] at hb hsim <;> cases hb
  obtain ⟨e, he, hb'⟩ := List.mem_flatMap.1 hb'
  obtain ⟨c, hc, rfl⟩ := List.mem_map.1 hb'
  exact ⟨(a, e.1, c), List.mem_flatMap.2 ⟨(o, a), List.mk_mem_zipIdx_iff_getElem?.2 ho', List.mem_flatMap.2 ⟨e, he, List.mem_map.2 ⟨c, hc, rfl⟩⟩⟩, rfl, rfl⟩

theorem acyclic {l : List (Op V)} (hs : ∀ o ∈ l, Simple o) (rank : Nat → Nat) (hr : ∀ e ∈ arrows l, rank e.1 < rank e.2.2.target) : Acyclic (heapOf l) := by
  have he : ∀ {a b}, Edge (heapOf l) a b → rank a < rank b := by
    intro a b h
    obtain ⟨e, h1, rfl, rfl⟩ := edge_arrow hs h
    exact hr e h1
  have : ∀ a b, Reach (heapOf l) a b → rank a ≤ rank b := by
    intro a b h
    induction h with
    | refl => exact le_refl _
    | step _ e ih => have := he e; omega
  intro a b h h'
  have h1 := he h
  have h2 := this b a h'
  omega

theorem clocked {l : List (Op V)} {c : Nat} {pc : Str} {D : Nat → Prop} (hc : ¬ D c)
    (hs : ∀ e ∈ arrows l, D e.2.2.target → (D e.1 ∨ (e.1 = c ∧ e.2.1 = pc)) ∧ ∃ o, l[e.2.2.target]? = some o ∧ o.core.dataIn.has e.2.2.port = true)
    (hk : ∀ b o, D b → l[b]? = some o → Current o.kind) : Clocked (heapOf l) c pc D where
  away := hc
  source a p x hx hD := hs _ (mem_arrows hx) hD
  kinds := hk

/-- A property of all operators of a list, address by address. -/
theorem all_of_mem {l : List (Op V)} {Q : Op V → Prop} (h : ∀ o ∈ l, Q o) : ∀ b o, heapOf l b = some o → Q o :=
  fun _ o ho => h o (List.mem_of_getElem? ho)

end Rtbot.Finite
