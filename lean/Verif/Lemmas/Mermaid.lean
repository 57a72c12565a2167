import Verif.Spec.Mermaid
import Verif.Lemmas.PyProgram

/-! # The text of a diagram -/

namespace Rtbot
namespace Mermaid
open Spec
variable {V : Type}

theorem commaJoin_eq : ∀ l : List Str, commaJoin l = (List.intersperse b!"," l).flatten
  | [] => rfl
  | [a] => by simp [commaJoin]
  | a :: b :: l => by
    rw [commaJoin, commaJoin_eq (b :: l), List.intersperse_cons_cons]
    simp

/-- The members that are shown. -/
abbrev shownKeys (ks : List Str) : List Str := ks.filter fun k => k ≠ b!"id" ∧ k ≠ b!"type"

theorem args_ok (py : PyText V) {x : Json V} : ∀ {ks : List Str}, (∀ k ∈ ks, ∃ v, Member x k v) →
    ∃ vs, List.Forall₂ (fun k v => Member x k v) (shownKeys ks) vs ∧ mermaidArgs py x ks = .ok (vs.map py.format) := by
  intro ks
  induction ks with
  | nil => intro _; exact ⟨[], .nil, rfl⟩
  | cons k ks ih =>
    intro h
    obtain ⟨vs, h1, h2⟩ := ih fun k' hk => h k' (List.mem_cons_of_mem _ hk)
    unfold mermaidArgs
    by_cases hk : k ≠ b!"id" ∧ k ≠ b!"type"
    · obtain ⟨v, hv⟩ := h k List.mem_cons_self
      refine ⟨v :: vs, ?_, ?_⟩
      · rw [shownKeys, List.filter_cons, if_pos (by simpa using hk)]
        exact .cons hv h1
      · rw [if_pos hk, pyItem_ok.2 hv, h2]
        rfl
    · refine ⟨vs, ?_, ?_⟩
      · rw [shownKeys, List.filter_cons, if_neg (by simpa using hk)]
        exact h1
      · rw [if_neg hk, h2]

theorem find_of_key {α : Type} {m : Map α} {k : Str} (h : k ∈ m.keys) : ∃ v, m.find? k = some v := by
  induction m with
  | nil => cases h
  | cons e m ih =>
    rw [Map.find?_cons]
    split
    · exact ⟨_, rfl⟩
    · rename_i hne
      rcases List.mem_cons.1 h with h | h
      · exact absurd h.symm hne
      · exact ih h

theorem label_ok (py : PyText V) {x : Json V} {t : Str} (ht : HasType x t) : ∃ l, mermaidLabel py x = .ok l ∧ Labels py x l := by
  obtain ⟨m, rfl, hm⟩ := id ht
  obtain ⟨vs, h1, h2⟩ := args_ok py (x := .obj m) (ks := py.order m) fun k hk => by
    obtain ⟨v, hv⟩ := find_of_key ((py.listed m).mem_iff.1 hk)
    exact ⟨v, m, rfl, hv⟩
  refine ⟨t ++ if 0 < (vs.map py.format).length then b!"(" ++ commaJoin (vs.map py.format) ++ b!")" else [], ?_, m, t, vs, rfl, ht, h1, ?_⟩
  · unfold mermaidLabel
    rw [pyItem_ok.2 ht]
    show (mermaidArgs py (.obj m) (py.order m) >>= fun args => _) = _
    rw [h2]
    rfl
  · cases vs with
    | nil => exact .inl ⟨rfl, by simp⟩
    | cons v vs =>
      refine .inr ⟨by simp, ?_⟩
      rw [if_pos (by simp), commaJoin_eq]
      simp

theorem next_ok {id : Str} : ∀ {ops : List (Json V)}, (∀ x ∈ ops, ∃ i, HasId x i) → (∃ x ∈ ops, HasId x id) →
    ∃ x ∈ ops, HasId x id ∧ pyNext (.str id) ops = .ok (some x) := by
  intro ops
  induction ops with
  | nil => rintro _ ⟨x, hx, _⟩; cases hx
  | cons y ops ih =>
    intro h hx
    obtain ⟨i, hi⟩ := h y List.mem_cons_self
    unfold pyNext
    rw [pyItem_ok.2 hi]
    by_cases he : i = id
    · subst he
      refine ⟨y, List.mem_cons_self, hi, ?_⟩
      show (if i = i then _ else _) = _
      rw [if_pos rfl]
    · have : ∃ x ∈ ops, HasId x id := by
        obtain ⟨x, hx, hxi⟩ := hx
        rcases List.mem_cons.1 hx with rfl | hx
        · have := hi.unique hxi
          exact absurd (by simpa using this) he
        · exact ⟨x, hx, hxi⟩
      obtain ⟨x, h1, h2, h3⟩ := ih (fun z hz => h z (List.mem_cons_of_mem _ hz)) this
      refine ⟨x, List.mem_cons_of_mem _ h1, h2, ?_⟩
      show (if i = id then _ else _) = _
      rw [if_neg he, h3]

/-- The operators have ids and types, and no id twice. -/
theorem unique_id {ops : List (Json V)} (h : ops.Pairwise fun x y => ∀ id, HasId x id → ¬ HasId y id) {x y : Json V} (hx : x ∈ ops) (hy : y ∈ ops) {id : Str} (h1 : HasId x id) (h2 : HasId y id) : x = y := by
  induction h with
  | nil => cases hx
  | cons hz _ ih =>
    rcases List.mem_cons.1 hx with rfl | hx
    · rcases List.mem_cons.1 hy with rfl | hy
      · rfl
      · exact absurd h2 (hz y hy id h1)
    · rcases List.mem_cons.1 hy with rfl | hy
      · exact absurd h1 (hz x (by assumption) id h2)
      · exact ih hx hy

open Classical in
/-- The label of the operator with the id. -/
noncomputable def labelOf (py : PyText V) (ops : List (Json V)) (id : Str) : Str :=
  if h : ∃ x ∈ ops, HasId x id then match mermaidLabel py h.choose with
    | .ok l => l
    | .error _ => []
  else []

theorem labelOf_eq (py : PyText V) {ops : List (Json V)} (h : ops.Pairwise fun x y => ∀ id, HasId x id → ¬ HasId y id) {x : Json V} (hx : x ∈ ops) {id l : Str} (h1 : HasId x id)
    (hl : mermaidLabel py x = .ok l) : labelOf py ops id = l := by
  have he : ∃ x ∈ ops, HasId x id := ⟨x, hx, h1⟩
  unfold labelOf
  rw [dif_pos he, unique_id h he.choose_spec.1 hx he.choose_spec.2 h1, hl]

theorem lines_ok (py : PyText V) {p : PyProgram V} {ops cs : List (Json V)} (hp : WellBuilt p ops cs) : ∀ {ds : List (Json V)} {es : List Arrow}, (∀ d ∈ ds, d ∈ cs) → List.Forall₂ Drawn ds es →
    mermaidLines py p.operators ds = .ok (es.map (arrowLine (labelOf py ops))).flatten := by
  intro ds es hsub hd
  induction hd with
  | nil => rfl
  | @cons c e ds es hc _ ih =>
    unfold mermaidLines
    rw [ih fun d hd => hsub d (List.mem_cons_of_mem _ hd)]
    obtain ⟨_, f, t, hf, ht, hxf, hxt⟩ := hp.joined c (hsub c List.mem_cons_self)
    have e1 : e.src = f := by simpa using hc.src.unique hf
    have e2 : e.dst = t := by simpa using hc.dst.unique ht
    subst e1 e2
    have hids : ∀ x ∈ ops, ∃ i, HasId x i := by
      intro x hx
      obtain ⟨t, ht⟩ := hp.valid x hx
      obtain ⟨_, h1, i, rfl⟩ := ht.id
      exact ⟨i, h1⟩
    obtain ⟨x, hx, hxi, hxn⟩ := next_ok hids hxf
    obtain ⟨y, hy, hyi, hyn⟩ := next_ok hids hxt
    obtain ⟨tx, htx⟩ := hp.valid x hx
    obtain ⟨ty, hty⟩ := hp.valid y hy
    obtain ⟨lx, hlx, _⟩ := label_ok py htx.type
    obtain ⟨ly, hly, _⟩ := label_ok py hty.type
    have hline : mermaidLine py p.operators c = .ok (arrowLine (labelOf py ops) e) := by
      unfold mermaidLine
      rw [hp.listed, pyItem_ok.2 hc.src, pyItem_ok.2 hc.dst, pyItem_ok.2 hc.out, pyItem_ok.2 hc.inp]
      show (pyNext (.str e.src) ops >>= fun a => pyNext (.str e.dst) ops >>= fun b => _) = _
      rw [hxn, hyn]
      show (mermaidLabel py x >>= fun a => mermaidLabel py y >>= fun b => _) = _
      rw [hlx, hly]
      unfold arrowLine
      rw [labelOf_eq py hp.distinct hx hxi hlx, labelOf_eq py hp.distinct hy hyi hly]
      rfl
    rw [hline]
    rfl

/-! ## Reading the text -/

theorem split_at {c : UInt8} : ∀ {a b u v : Str}, c ∉ a → c ∉ b → a ++ c :: u = b ++ c :: v → a = b ∧ u = v := by
  intro a
  induction a with
  | nil =>
    intro b u v _ hb h
    cases b with
    | nil => exact ⟨rfl, (List.cons.inj h).2⟩
    | cons x b => exact absurd (List.cons.inj h).1 fun e => hb (by rw [e]; exact List.mem_cons_self)
  | cons x a ih =>
    intro b u v ha hb h
    cases b with
    | nil => exact absurd (List.cons.inj h).1 fun e => ha (by rw [← e]; exact List.mem_cons_self)
    | cons y b =>
      obtain ⟨rfl, h2⟩ := List.cons.inj h
      obtain ⟨rfl, h3⟩ := ih (fun hm => ha (List.mem_cons_of_mem _ hm)) (fun hm => hb (List.mem_cons_of_mem _ hm)) h2
      exact ⟨rfl, h3⟩

theorem line_inj {label : Str → Str} {e e' : Arrow} (h : PlainArrow e) (h' : PlainArrow e') {u v : Str} (heq : arrowLine label e ++ u = arrowLine label e' ++ v) : e = e' ∧ u = v := by
  obtain ⟨s, d, o, i⟩ := e
  obtain ⟨s', d', o', i'⟩ := e'
  obtain ⟨h1, h2, h3, h4⟩ := h
  obtain ⟨h1', h2', h3', h4'⟩ := h'
  dsimp only at h1 h2 h3 h4 h1' h2' h3' h4'
  have hx : ∀ (s d o i w : Str), arrowLine label ⟨s, d, o, i⟩ ++ w = s ++ 40 :: (34 :: (label s ++ ([34, 41, 32, 45, 45, 62, 32, 124] ++ (o ++ 58 :: (i ++ 124 :: (32 :: (d ++ 40 :: (34 :: (label d ++ ([34, 41, 59, 10] ++ w)))))))))) := by
    intro s d o i w
    simp [arrowLine]
  rw [hx, hx] at heq
  obtain ⟨e1, q1⟩ := split_at h1 h1' heq
  subst e1
  have q2 := List.append_cancel_left (List.append_cancel_left (List.cons.inj q1).2)
  obtain ⟨e3, q3⟩ := split_at h3 h3' q2
  obtain ⟨e4, q4⟩ := split_at h4 h4' q3
  obtain ⟨e5, q5⟩ := split_at h2 h2' (List.cons.inj q4).2
  subst e3 e4 e5
  exact ⟨rfl, List.append_cancel_left (List.append_cancel_left (List.cons.inj q5).2)⟩

theorem line_ne (label : Str → Str) (e : Arrow) : arrowLine label e ≠ [] := by
  intro h
  have := congrArg List.length h
  simp [arrowLine] at this

theorem lines_inj {label : Str → Str} : ∀ {es es' : List Arrow}, (∀ e ∈ es, PlainArrow e) → (∀ e ∈ es', PlainArrow e) →
    (es.map (arrowLine label)).flatten = (es'.map (arrowLine label)).flatten → es = es' := by
  intro es
  induction es with
  | nil =>
    intro es' _ _ h
    cases es' with
    | nil => rfl
    | cons e es' =>
      rw [List.map_cons, List.flatten_cons] at h
      exact absurd (List.append_eq_nil_iff.1 h.symm).1 (line_ne label e)
  | cons e es ih =>
    intro es' h1 h2 h
    cases es' with
    | nil =>
      rw [List.map_cons, List.flatten_cons] at h
      exact absurd (List.append_eq_nil_iff.1 h).1 (line_ne label e)
    | cons e' es' =>
      rw [List.map_cons, List.flatten_cons, List.map_cons, List.flatten_cons] at h
      obtain ⟨he, ht⟩ := line_inj (h1 e List.mem_cons_self) (h2 e' List.mem_cons_self) h
      rw [he, ih (fun x hx => h1 x (List.mem_cons_of_mem _ hx)) (fun x hx => h2 x (List.mem_cons_of_mem _ hx)) ht]

end Mermaid
end Rtbot
