import Verif.Lemmas.Pipeline

set_option linter.unusedSectionVars false

/-! # The operators in the memory of a created program, pipelines and their inner operators included -/

namespace Rtbot
variable {V : Type} [Num V]
open Spec

/-- The operator comes from a constructor. -/
inductive Made : Op V → Prop
  | built {o : Op V} (h : Built o) : Made o
  | pipe {o : Op V} {ins outs : Map Nat} {pm : Map Str} (h : Begun o.core) (hk : o.kind = .pipeline ins outs pm) : Made o

theorem Made.begun {o : Op V} (h : Made o) : Begun o.core := by
  cases h with
  | built h => exact h.new.core
  | pipe h _ => exact h

theorem Made.whole {o : Op V} (h : Made o) : ∀ i q, o.kind ≠ .composite i q := by
  intro i q hk
  cases h with
  | built h =>
    have := h.new.simple
    unfold Simple at this
    rw [hk] at this
    exact this
  | pipe _ h => rw [h] at hk; cases hk

theorem Made.bare_eq {o : Op V} (h : Made o) : bare o = o := by
  have := h.begun.alone
  obtain ⟨⟨_, _, _, _, _, _⟩, _⟩ := o
  dsimp only at this
  subst this
  rfl

/-- Everything in the memory comes from constructors, and connections lead to input ports. -/
structure Orderly (m : Mem V) : Prop where
  free : ∀ a, m.next ≤ a → m.heap a = none
  made : ∀ a o, m.heap a = some o → Made (bare o)
  conns : ConnsOK m.heap

theorem orderly_start : Orderly (⟨fun _ => none, 0⟩ : Mem V) := ⟨fun _ _ => rfl, fun _ _ h => (by cases h), fun _ _ h => (by cases h)⟩

theorem Orderly.alloc {m : Mem V} (h : Orderly m) {o : Op V} (ho : Made o) : Orderly (m.alloc o) := by
  have hfree : m.heap m.next = none := h.free _ (Nat.le_refl _)
  refine ⟨fun a ha => ?_, fun a o' ha => ?_, fun a o' ha p cs hm => ?_⟩
  · simp only [Mem.alloc] at ha ⊢
    rw [if_neg (by omega)]
    exact h.free a (by omega)
  · simp only [Mem.alloc] at ha
    split at ha
    · cases ha
      rw [ho.bare_eq]
      exact ho
    · exact h.made a o' ha
  · simp only [Mem.alloc] at ha
    split at ha
    · cases ha
      rw [ho.begun.alone] at hm
      cases hm
    · obtain ⟨h1, h2⟩ := h.conns a o' ha p cs hm
      refine ⟨h1, fun c hc => ?_⟩
      obtain ⟨t, h3, h4⟩ := h2 c hc
      refine ⟨t, ?_, h4⟩
      simp only [Mem.alloc]
      rw [if_neg]
      · exact h3
      · intro he
        rw [he, hfree] at h3
        cases h3

theorem makeConn_orderly {ops : Map Nat} {x : ConnDesc} {m m' : Mem V} (hm : Orderly m) (h : makeConn ops x m = .ok m') :
    Orderly m' ∧ m'.next = m.next := by
  have hc : ConnsOK m'.heap := by
    unfold makeConn at h
    obtain ⟨a, _, h⟩ := bind_eq_ok.1 h
    obtain ⟨b, _, h⟩ := bind_eq_ok.1 h
    have := connectOp_conns (s := m.st) hm.conns a b x.fromPort x.toPort
    cases hr : connectOp a b x.fromPort x.toPort m.st with
    | err e s => rw [hr] at h; cases h
    | ok r s =>
      rw [hr] at h this
      cases r with
      | false => cases h
      | true => cases h; exact this
  unfold makeConn at h
  obtain ⟨a, h1, h⟩ := bind_eq_ok.1 h
  obtain ⟨b, h2, h⟩ := bind_eq_ok.1 h
  unfold connectOp at h
  simp only [bind, M.bind, getOp, Mem.st] at h
  cases ha : m.heap a with
  | none => rw [ha] at h; cases h
  | some o =>
    rw [ha] at h
    dsimp only at h
    cases hb : m.heap b with
    | none => rw [hb] at h; cases h
    | some t =>
      rw [hb] at h
      dsimp only at h
      have hk : ∀ i q, o.kind ≠ .composite i q := (hm.made a o ha).whole
      have key : (match localRun a (Op.connect t.core b x.fromPort x.toPort) ⟨m.heap, 0, []⟩ with
          | .err e _ => .error e
          | .ok true s => .ok { m with heap := s.heap }
          | .ok false _ => throwExc .runtime : Except Err (Mem V)) = .ok m' := by
        cases hkind : o.kind <;> rw [hkind] at h hk <;> first | exact h | exact (hk _ _ rfl).elim
      unfold localRun at key
      dsimp only at key
      rw [ha] at key
      dsimp only [Op.connect] at key
      cases hcc : o.core.connect t.core b x.fromPort x.toPort with
      | error e => rw [hcc] at key; cases key
      | ok r =>
        rw [hcc] at key
        cases r with
        | none => cases key
        | some c =>
          cases key
          obtain ⟨p, q, cs, _, _, rfl, _⟩ := connect_means hcc
          refine ⟨⟨fun y hy => ?_, fun y o' hy => ?_, hc⟩, rfl⟩
          · simp only [St.setOp]
            rw [if_neg]
            · exact hm.free y hy
            · rintro rfl
              rw [hm.free _ hy] at ha
              cases ha
          · simp only [St.setOp] at hy
            split at hy
            · cases hy
              exact hm.made a o ha
            · exact hm.made y o' hy

theorem makeConns_orderly {ops : Map Nat} (js : List (Json V)) : ∀ {m m' : Mem V}, Orderly m → makeConns ops js m = .ok m' →
    Orderly m' ∧ m'.next = m.next := by
  induction js with
  | nil => intro m m' hm h; cases h; exact ⟨hm, rfl⟩
  | cons j js ih =>
    intro m m' hm h
    obtain ⟨x, _, h⟩ := bind_eq_ok.1 h
    obtain ⟨m1, h1, h⟩ := bind_eq_ok.1 h
    obtain ⟨w1, w2⟩ := makeConn_orderly hm h1
    obtain ⟨w3, w4⟩ := ih w1 h
    exact ⟨w3, w4.trans w2⟩

theorem pipeConns_orderly {ops : Map Nat} (js : List (Json V)) : ∀ {m m' : Mem V} {ui uo ui' uo' : List Str}, Orderly m →
    pipeConns ops js m ui uo = .ok (m', ui', uo') → Orderly m' ∧ m'.next = m.next := by
  induction js with
  | nil => intro m m' ui uo ui' uo' hm h; cases h; exact ⟨hm, rfl⟩
  | cons j js ih =>
    intro m m' ui uo ui' uo' hm h
    obtain ⟨x, _, h⟩ := bind_eq_ok.1 h
    obtain ⟨m1, h1, h⟩ := bind_eq_ok.1 h
    obtain ⟨b, _, h⟩ := bind_eq_ok.1 h
    obtain ⟨_, _, h⟩ := bind_eq_ok.1 h
    obtain ⟨a, _, h⟩ := bind_eq_ok.1 h
    obtain ⟨_, _, h⟩ := bind_eq_ok.1 h
    obtain ⟨w1, w2⟩ := makeConn_orderly hm h1
    obtain ⟨w3, w4⟩ := ih w1 h
    exact ⟨w3, w4.trans w2⟩

/-- The reader keeps the memory orderly. -/
def ReadsOrderly (read : Json V → Mem V → Except Err (Op V × Mem V)) : Prop :=
  ∀ x m o m', Orderly m → read x m = .ok (o, m') → Orderly m' ∧ Made o

theorem buildOps_orderly {read : Json V → Mem V → Except Err (Op V × Mem V)} (hr : ReadsOrderly read) (xs : List (Json V)) :
    ∀ {ops ops' : Map Nat} {m m' : Mem V}, Orderly m → buildOps read xs ops m = .ok (ops', m') → Orderly m' := by
  induction xs with
  | nil => intro ops ops' m m' hm h; cases h; exact hm
  | cons x xs ih =>
    intro ops ops' m m' hm h
    simp only [buildOps] at h
    obtain ⟨idj, _, h⟩ := bind_eq_ok.1 h
    obtain ⟨⟨o, m1⟩, h1, h⟩ := bind_eq_ok.1 h
    obtain ⟨id, _, h⟩ := bind_eq_ok.1 h
    obtain ⟨w1, w2⟩ := hr x m o m1 hm h1
    dsimp only at h
    split at h
    · exact ih w1 h
    · exact ih (w1.alloc w2) h

theorem nameInputs_begun (keys : List Str) : ∀ {n : Nat} {c c' : Core V} {pm pm' : Map Str}, Begun c → nameInputs keys n c pm = .ok (c', pm') → Begun c' := by
  induction keys with
  | nil => intro n c c' pm pm' hc h; cases h; exact hc
  | cons k keys ih =>
    intro n c c' pm pm' hc h
    obtain ⟨c1, h1, h⟩ := bind_eq_ok.1 h
    exact ih (hc.addDataInput h1).1 h

theorem nameOutputs_begun (keys : List Str) : ∀ {n : Nat} {c : Core V} {pm : Map Str}, Begun c → Begun (nameOutputs keys n c pm).1 := by
  induction keys with
  | nil => intro n c pm hc; exact hc
  | cons k keys ih => intro n c pm hc; exact ih (hc.addOutput _)

theorem readOp_orderly (junk : Junk V) (fuel : Nat) : ReadsOrderly (readOp junk fuel) := by
  induction fuel with
  | zero => intro x m o m' _ h; cases h
  | succ fuel ih =>
    intro x m o m' hm h
    by_cases hp : HasType x b!"Pipeline"
    · unfold readOp at h
      obtain ⟨tj, h1, h⟩ := bind_eq_ok.1 h
      obtain ⟨t, h2, h⟩ := bind_eq_ok.1 h
      have : t = b!"Pipeline" := by
        have := (at_ok h1).unique hp
        rw [getStr_ok h2] at this
        cases this
        rfl
      rw [if_pos this] at h
      obtain ⟨idj, _, h⟩ := bind_eq_ok.1 h
      obtain ⟨id, _, h⟩ := bind_eq_ok.1 h
      obtain ⟨prog, _, h⟩ := bind_eq_ok.1 h
      unfold newPipeline at h
      obtain ⟨os, _, h⟩ := bind_eq_ok.1 h
      obtain ⟨⟨ops, m1⟩, h2, h⟩ := bind_eq_ok.1 h
      obtain ⟨cs, _, h⟩ := bind_eq_ok.1 h
      obtain ⟨⟨m2, ui, uo⟩, h4, h⟩ := bind_eq_ok.1 h
      obtain ⟨⟨ins, outs⟩, _, h⟩ := bind_eq_ok.1 h
      obtain ⟨⟨c, pm⟩, h6, h⟩ := bind_eq_ok.1 h
      have w1 := buildOps_orderly ih os.items hm h2
      have w2 := pipeConns_orderly cs.items w1 h4
      cases h
      exact ⟨w2.1, .pipe (nameOutputs_begun _ (nameInputs_begun _ (begun_new _) h6)) rfl⟩
    · obtain ⟨t, _, h1, rfl⟩ := readOp_simple h hp
      exact ⟨hm, .built (simpleOpOf_built h1).1⟩

/-- The memory of a created program. -/
theorem initWith_orderly {junk : Junk V} {json : Str} {j : Json V} {P : Prog V} (h : Prog.initWith junk json j = .ok P) :
    P = Prog.empty json ∨ ∃ m, Orderly m ∧ P.st = m.st ∧ ∃ a o, P.ops.find? P.entry = some a ∧ P.st.heap a = some o ∧ o.core.ctrlIn = [] := by
  obtain ⟨entry, os, ops, m, cs, m', a, o, _, _, hos, hb, hcs, hc, ha, ho, h | h⟩ := initWith_ok h
  · obtain ⟨h1, rfl⟩ := h
    have w1 := buildOps_orderly (readOp_orderly junk _) os.items orderly_start hb
    exact Or.inr ⟨m', (makeConns_orderly cs.items w1 hc).1, rfl, a, o, ha, ho, h1⟩
  · exact Or.inl h.2

end Rtbot
