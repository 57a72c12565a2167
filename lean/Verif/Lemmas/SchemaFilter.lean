import Verif.Lemmas.SchemaMake

set_option linter.unusedSectionVars false

/-! # What a factory accepts passes the schema; the output filter -/

namespace Rtbot
variable {V : Type} [Num V]
open Spec

theorem denotes_isNumber {x : Json V} {v : V} (h : Denotes x v) : IsNumber x := by
  cases h with
  | whole n => exact .uint n
  | natural n => exact .int _
  | negative n _ => exact .int _
  | float v => exact .float v

theorem denote_isNumbers {xs : List (Json V)} {vs : List V} (h : List.Forall₂ Denotes xs vs) : ∀ x ∈ xs, IsNumber x := by
  induction h with
  | nil => intro x hx; cases hx
  | cons h _ ih =>
    intro x hx
    rcases List.mem_cons.1 hx with rfl | hx
    · exact denotes_isNumber h
    · exact ih x hx

/-- A count below the limits of an `int`. -/
theorem counts_atLeast {j : Json V} {k : Str} {n : UInt64} {lo : Nat} (h : Counts j k n) (hn : n.toNat < 2 ^ 31) (hlo : lo ≤ n.toNat) :
    May j k (AtLeast lo) := by
  intro x hx
  rcases h with h | ⟨h, _⟩
  · cases h.unique hx
    exact .uint n hlo (by omega)
  · exact absurd hx (h x)

theorem counts_integer {j : Json V} {k : Str} {n : UInt64} (h : Counts j k n) : May j k IsInteger := by
  intro x hx
  rcases h with h | ⟨h, _⟩
  · cases h.unique hx
    exact .uint n
  · exact absurd hx (h x)

theorem counts_pos {j : Json V} {k : Str} {n : UInt64} (h : Counts j k n) (h0 : ¬ Member j k (.uint 0)) : 1 ≤ n.toNat := by
  rcases h with h | ⟨_, rfl⟩
  · by_contra hc
    have : n = 0 := by
      apply UInt64.toNat_inj.1
      show n.toNat = 0
      omega
    rw [this] at h
    exact h0 h
  · decide

theorem doc_of_describes {junk : UInt64 × V} {j : Json V} {o : Op V} (h : Describes junk j o) (hd : Documented j) : ∃ t, DocOp j t := by
  have key : ∀ {t id}, HasType j t → HasId j id → DocParams j t → ∃ t, DocOp j t := fun ht hid hp => ⟨_, ht, ⟨_, hid, _, rfl⟩, hp⟩
  cases h with
  | binary ht hid h =>
    refine key ht hid (.plain ?_)
    simp only [List.mem_cons, List.not_mem_nil, or_false, Prod.mk.injEq] at h
    rcases h with ⟨rfl, _⟩ | ⟨rfl, _⟩ | ⟨rfl, _⟩ | ⟨rfl, _⟩ | ⟨rfl, _⟩ | ⟨rfl, _⟩ | ⟨rfl, _⟩ | ⟨rfl, _⟩ <;> simp
  | filter ht hid h hx hv =>
    simp only [List.mem_cons, List.not_mem_nil, or_false, Prod.mk.injEq] at h
    rcases h with ⟨rfl, _⟩ | ⟨rfl, _⟩ | ⟨rfl, _⟩
    · exact key ht hid (.value (by simp) ⟨_, hx, denotes_isNumber hv⟩)
    · exact key ht hid (.lessThan ⟨_, hx, hd.lessThan ht _ hx⟩)
    · exact key ht hid (.value (by simp) ⟨_, hx, denotes_isNumber hv⟩)
  | constant ht hid hx hv => exact key ht hid (.value (by simp) ⟨_, hx, denotes_isNumber hv⟩)
  | add ht hid hx hv => exact key ht hid (.value (by simp) ⟨_, hx, denotes_isNumber hv⟩)
  | scale ht hid hx hv => exact key ht hid (.value (by simp) ⟨_, hx, denotes_isNumber hv⟩)
  | power ht hid hx hv => exact key ht hid (.value (by simp) ⟨_, hx, denotes_isNumber hv⟩)
  | movAvg ht hid hn => exact key ht hid (.window (by simp) ⟨_, hn, .uint _⟩)
  | stdDev ht hid hn => exact key ht hid (.stdDev ⟨_, hn, .uint _⟩)
  | peak ht hid hn => exact key ht hid (.window (by simp) ⟨_, hn, .uint _⟩)
  | rsi ht hid hn => exact absurd ht hd.notRsi
  | cumSum ht hid => exact key ht hid (.plain (by simp))
  | count ht hid => exact key ht hid (.plain (by simp))
  | difference ht hid => exact key ht hid (.plain (by simp))
  | identity ht hid => exact key ht hid (.plain (by simp))
  | input ht hid hn hb h => exact key ht hid (.ports (by simp) (counts_atLeast hn hb (counts_pos hn (hd.input ht))))
  | output ht hid hn hb h => exact key ht hid (.ports (by simp) (counts_atLeast hn hb (counts_pos hn (hd.output ht))))
  | demux ht hid hn hb h =>
    refine key ht hid (.ports (by simp) (counts_atLeast hn hb ?_))
    unfold Op.newDemux at h
    split at h
    · cases h
    · omega
  | join ht hid hn hb h =>
    refine key ht hid (.join fun x hx => ?_)
    cases hn.unique hx
    refine .uint _ ?_ (by omega)
    unfold Op.newJoin at h
    split at h
    · cases h
    · omega
  | cosRes ht hid hn => exact key ht hid (.resampler (by simp) ⟨_, hn, .uint _⟩)
  | hermRes ht hid hn => exact key ht hid (.resampler (by simp) ⟨_, hn, .uint _⟩)
  | constRes ht hid hn h =>
    refine key ht hid (.constRes ⟨_, hn, .uint _ ?_ (hd.interval ht _ hn)⟩)
    unfold Op.newConstRes at h
    split at h
    · cases h
    · rename_i hle
      exact Nat.lt_of_not_le fun hc => hle hc
  | fir ht hid hx hv => exact key ht hid (.fir ⟨_, hx, _, rfl, denote_isNumbers hv⟩)
  | autoReg ht hid hx hv =>
    refine key ht hid (.autoReg ⟨_, hx, ⟨_, rfl, denote_isNumbers hv⟩, ?_⟩)
    intro he
    rw [he] at hx
    exact hd.autoReg ht hx
  | linear ht hid hx hv h =>
    refine key ht hid (.linear fun x hx' => ?_)
    cases hx.unique hx'
    refine ⟨⟨_, rfl, denote_isNumbers hv⟩, ?_⟩
    simp only [Json.items]
    rw [hv.length_eq]
    unfold Op.newLinear at h
    split at h
    · cases h
    · omega
  | timeShift ht hid hd' hdb hn hnb =>
    exact key ht hid (.timeShift (counts_atLeast hd' hdb (counts_pos hd' (hd.shift ht))) (counts_integer hn))
  | «variable» ht hid hv hb =>
    refine key ht hid (.variable fun x hx => ?_)
    rcases hv with h | ⟨h, _⟩
    · cases h.unique hx
      exact .uint _
    · exact absurd hx (h x)

/-! ## The output filter -/

omit [Num V] in
theorem getStrs_texts (l : List (Json V)) (h : ∀ y ∈ l, IsText y) : ∃ ss : List Str, (Json.arr l).getStrs = .ok ss ∧ l = ss.map Json.str := by
  have : ∃ ss : List Str, l.mapM Json.getStr = (.ok ss : Except Err _) ∧ l = ss.map Json.str := by
    induction l with
    | nil => exact ⟨[], rfl, rfl⟩
    | cons y l ih =>
      obtain ⟨s, rfl⟩ := h y List.mem_cons_self
      obtain ⟨ss, h1, h2⟩ := ih fun y hy => h y (List.mem_cons_of_mem _ hy)
      refine ⟨s :: ss, ?_, by rw [h2]; rfl⟩
      rw [List.mapM_cons, h1]
      rfl
  obtain ⟨ss, h1, h2⟩ := this
  exact ⟨ss, h1, h2⟩

omit [Num V] in
theorem getEntries_texts (m : List (Str × Json V)) (h : ∀ k y, (k, y) ∈ m → ListOf IsText y) : ∀ out : Map (List Str), out.Sorted →
    ∃ f, Json.getEntries m out = .ok f ∧ f.Sorted ∧ ∀ k l, Map.find? f k = some l ↔
      Map.find? out k = some l ∨ Map.find? out k = none ∧ Map.find? m k = some (Json.arr (l.map Json.str)) := by
  induction m with
  | nil =>
    intro out hs
    refine ⟨out, rfl, hs, fun k l => ⟨Or.inl, ?_⟩⟩
    rintro (h | ⟨_, h⟩)
    · exact h
    · cases h
  | cons e m ih =>
    obtain ⟨k0, y⟩ := e
    intro out hs
    obtain ⟨l0, rfl, hl0⟩ := h k0 y List.mem_cons_self
    obtain ⟨ss, h1, rfl⟩ := getStrs_texts l0 hl0
    obtain ⟨f, h2, h3, h4⟩ := ih (fun k y hm => h k y (List.mem_cons_of_mem _ hm)) (out.emplace k0 ss) (hs.emplace k0 ss)
    refine ⟨f, ?_, h3, ?_⟩
    · rw [Json.getEntries, h1]
      exact h2
    · intro k l
      rw [h4, Map.find?_emplace, Map.find?_cons]
      have inj : ∀ l l' : List Str, (Json.arr (l.map Json.str) : Json V) = Json.arr (l'.map Json.str) → l = l' := by
        intro l l' he
        injection he with he
        exact List.map_injective_iff.2 (fun a b hab => by injection hab) he
      by_cases hk : k0 = k
      · subst hk
        cases ho : out.find? k0 with
        | none =>
          simp [ho]
          constructor
          · rintro rfl; rfl
          · intro he; exact inj _ _ (by rw [he])
        | some v => simp [ho]
      · have : ¬ k = k0 := fun hc => hk hc.symm
        simp [hk, this]

theorem readFilter_texts {j : Json V} {f : Map (Json V)} (hm : Member j b!"output" (.obj f)) (h : ∀ k y, (k, y) ∈ f → ListOf IsText y) :
    (readFilter j).Sorted ∧ ∀ k l, Map.find? (readFilter j) k = some l ↔ Member (.obj f) k (.arr (l.map Json.str)) := by
  obtain ⟨g, h1, h2, h3⟩ := getEntries_texts f h [] Map.Sorted.nil
  have hr : readFilter j = g := by
    unfold readFilter
    rw [hm.at]
    show (match Json.getEntries f [] with | .ok f => f | .error _ => []) = g
    rw [h1]
  rw [hr]
  refine ⟨h2, fun k l => ?_⟩
  rw [h3]
  constructor
  · rintro (h | ⟨_, h⟩)
    · cases h
    · exact ⟨f, rfl, h⟩
  · rintro ⟨m, hm, h⟩
    cases hm
    exact Or.inr ⟨rfl, h⟩

theorem readFilter_absent {j : Json V} (h : ∀ x, ¬ Member j b!"output" x) : readFilter j = [] := by
  unfold readFilter
  cases hx : j.at' b!"output" with
  | error e => rfl
  | ok x => exact absurd (at_ok hx) (h x)

end Rtbot

/-! ## Creating accepted programs -/

namespace Rtbot
variable {V : Type} [Num V]
open Spec

/-- The first description with an id. -/
theorem exists_first {xs : List (Json V)} {id : Str} (h : ∃ x ∈ xs, HasId x id) : ∃ x, FirstWith xs id x := by
  classical
  induction xs with
  | nil => obtain ⟨x, hx, _⟩ := h; cases hx
  | cons y xs ih =>
    by_cases hy : HasId y id
    · exact ⟨y, [], xs, rfl, hy, fun z hz => by cases hz⟩
    · obtain ⟨x, hx, hid⟩ := h
      rcases List.mem_cons.1 hx with rfl | hx
      · exact absurd hid hy
      · obtain ⟨x, pre, post, h1, h2, h3⟩ := ih ⟨x, hx, hid⟩
        refine ⟨x, y :: pre, post, by rw [h1]; rfl, h2, fun z hz => ?_⟩
        rcases List.mem_cons.1 hz with rfl | hz
        · exact hy
        · exact h3 z hz

/-- The end of creation. -/
def finish (json : Str) (j : Json V) (ops : Map Nat) (entry : Str) (m : Mem V) : Except Err (Prog V) :=
  match ops.find? entry with
  | none => throwExc .outOfRange
  | some a => do
    let o ← m.op a
    if o.core.ctrlIn.isEmpty then .ok { json := json, ops := ops, entry := entry, filter := readFilter j, st := m.st }
    else .ok (Prog.empty json)

/-- What creation does with an accepted description. -/
theorem initWith_steps {j : Json V} (hd : DocProgram j) (hs : AllSane j) (junk : Junk V) (json : Str) :
    ∃ entry os cs ops m, Member j b!"entryOperator" (.str entry) ∧ Member j b!"operators" (.arr os) ∧ Member j b!"connections" (.arr cs) ∧
      (∀ c ∈ cs, DocConn c) ∧ Making ops m ∧ (∀ a o, m.heap a = some o → FirstOf os o) ∧ (∀ x ∈ os, ∀ id, HasId x id → ops.has id = true) ∧
      Prog.initWith junk json j = (if entry = [] then throwExc .runtime else makeConns ops cs m >>= finish json j ops entry) := by
  obtain ⟨_, he, entry, rfl⟩ := hd.entry
  obtain ⟨_, ho, os, rfl, hos⟩ := hd.operators
  obtain ⟨_, hc, cs, rfl, hcs⟩ := hd.connections
  obtain ⟨ops, m, hb⟩ := buildOps_total (junk := junk) (fuel := j.depth) os (fun x hx => ⟨hos x hx, hs _ ho x hx⟩) [] ⟨fun _ => none, 0⟩
  have hp : ∀ x ∈ os, ¬ HasType x b!"Pipeline" := fun x hx => doc_noPipeline (hos x hx).choose_spec
  obtain ⟨h1, h2⟩ := buildOps_first os hp (seen := []) (ops := []) (m := ⟨fun _ => none, 0⟩) (fun a o h => by cases h) (fun x hx => by cases hx) hb
  refine ⟨entry, os, cs, ops, m, he, ho, hc, hcs, buildOps_making os hp making_start hb, h1, h2, ?_⟩
  unfold Prog.initWith
  rw [he.value, ho.at, hc.at]
  show (if entry = [] then throwExc .runtime else (buildOps (readOp junk (j.depth + 1)) os [] ⟨fun _ => none, 0⟩ >>= _)) = _
  rw [hb]
  rfl

theorem finish_has {ops : Map Nat} {m : Mem V} (hm : Making ops m) {json entry : Str} {j : Json V} :
    (ops.has entry = true ∧ ∃ R, finish json j ops entry m = .ok R) ∨
    (ops.has entry = false ∧ finish json j ops entry m = throwExc .outOfRange) := by
  unfold Map.has finish
  cases hf : ops.find? entry with
  | none => exact Or.inr ⟨rfl, rfl⟩
  | some a =>
    obtain ⟨o, ho, _⟩ := hm.indexed.listed _ _ hf
    refine Or.inl ⟨rfl, ?_⟩
    dsimp only
    rw [mop_ok.2 ho]
    show ∃ R, (if o.core.ctrlIn.isEmpty then _ else _) = _
    split
    · exact ⟨_, rfl⟩
    · exact ⟨_, rfl⟩

theorem initWith_total {j : Json V} (hd : DocProgram j) (hs : AllSane j) (junk : Junk V) (json : Str) :
    (∃ P, Prog.initWith junk json j = .ok P) ∨ ∃ e ∈ [Exc.runtime, .outOfRange], Prog.initWith junk json j = .error (.exc e) := by
  obtain ⟨entry, os, cs, ops, m, _, _, _, h4, h5, _, _, h8⟩ := initWith_steps hd hs junk json
  rw [h8]
  split
  · exact Or.inr ⟨.runtime, by simp, rfl⟩
  · rcases makeConns_total cs h4 h5 with ⟨m', hm⟩ | ⟨e, he, hm⟩
    · rw [hm]
      have h5' := makeConns_making cs h5 hm
      rcases finish_has h5' (json := json) (j := j) (entry := entry) with ⟨_, h⟩ | ⟨_, h⟩
      · exact Or.inl h
      · exact Or.inr ⟨.outOfRange, by simp, h⟩
    · rw [hm]; exact Or.inr ⟨e, he, rfl⟩

theorem initWith_connectable {j : Json V} (hd : DocProgram j) (hs : AllSane j) {entry : Str} {os cs : Json V}
    (he : Member j b!"entryOperator" (.str entry)) (hne : entry ≠ []) (hos : Member j b!"operators" os) (hx : ∃ x ∈ os.items, HasId x entry)
    (hcs : Member j b!"connections" cs) (hc : ∀ c ∈ cs.items, Connectable os.items c) (junk : Junk V) (json : Str) :
    ∃ P, Prog.initWith junk json j = .ok P := by
  obtain ⟨entry', os', cs', ops, m, h1, h2, h3, h4, h5, h6, h7, h8⟩ := initWith_steps hd hs junk json
  cases he.unique h1
  cases hos.unique h2
  cases hcs.unique h3
  rw [h8, if_neg hne]
  obtain ⟨m', hm⟩ := makeConns_connectable h7 cs' h4 hc h5 h6
  rw [hm]
  have h5' := makeConns_making cs' h5 hm
  obtain ⟨x, hx, hid⟩ := hx
  rcases finish_has h5' (json := json) (j := j) (entry := entry) with ⟨_, h⟩ | ⟨h, _⟩
  · exact h
  · rw [h7 x hx entry hid] at h; cases h

/-- A sane description without integer parameters. -/
theorem sane_of {m : Map (Json V)} (h : ∀ k ∈ [b!"n", b!"dt", b!"interval", b!"numPorts", b!"times"], Map.find? m k = none) {t : Str}
    (ht : Map.find? m b!"type" = some (.str t)) (h2 : t ∉ [b!"Variable", b!"Join", b!"Linear", b!"Function"]) : Sane (.obj m) := by
  have hno : ∀ k ∈ [b!"n", b!"dt", b!"interval", b!"numPorts", b!"times"], ∀ x : Json V, ¬ Member (.obj m) k x := by
    rintro k hk x ⟨m', hm, hx⟩
    cases hm
    rw [h k hk] at hx
    cases hx
  have hty : ∀ t', HasType (.obj m) t' → t' = t := by
    rintro t' ⟨m', hm, hx⟩
    cases hm
    rw [ht] at hx
    cases hx
    rfl
  refine ⟨⟨fun k hk x hx => absurd hx (hno k hk x), fun k hk n hx => absurd hx (hno k ?_ _), fun _ n hx => absurd hx (hno _ (by simp) _), ?_⟩, ?_, ?_, ?_⟩
  · simp only [List.mem_cons, List.not_mem_nil, or_false] at hk ⊢
    rcases hk with rfl | rfl <;> simp
  all_goals
    intro hc
    exact absurd (hty _ hc) (by rintro rfl; exact h2 (by simp))

end Rtbot
