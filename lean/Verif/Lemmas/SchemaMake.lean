import Verif.Lemmas.SchemaProg
import Verif.Lemmas.DemuxRun
import Verif.Lemmas.SyncRun
import Verif.Lemmas.SyncOps
import Verif.Lemmas.Wiring

set_option linter.unusedSectionVars false

/-! # Creating what the schema accepts -/

namespace Rtbot
variable {V : Type} [Num V]
open Spec

theorem isNumber_denotes {x : Json V} (h : IsNumber x) : ∃ v, Denotes x v := by
  cases h with
  | uint n => exact ⟨_, .whole n⟩
  | int i =>
    rcases Int.lt_or_le i 0 with hi | hi
    · refine ⟨Num.neg (Num.ofNat i.natAbs), ?_⟩
      have : i = -(i.natAbs : Int) := by omega
      rw [this, Int.natAbs_neg, Int.natAbs_natCast]
      exact .negative _ (by omega)
    · refine ⟨Num.ofNat i.natAbs, ?_⟩
      have : i = (i.natAbs : Int) := by omega
      rw [this, Int.natAbs_natCast]
      exact .natural _
  | float v => exact ⟨v, .float v⟩

theorem isNumbers_denote {xs : List (Json V)} (h : ∀ x ∈ xs, IsNumber x) : ∃ vs, List.Forall₂ Denotes xs vs := by
  induction xs with
  | nil => exact ⟨[], .nil⟩
  | cons x xs ih =>
    obtain ⟨v, hv⟩ := isNumber_denotes (h x List.mem_cons_self)
    obtain ⟨vs, hvs⟩ := ih fun y hy => h y (List.mem_cons_of_mem _ hy)
    exact ⟨v :: vs, .cons hv hvs⟩

theorem Spec.IsInteger.number {x : Json V} (h : IsInteger x) : IsNumber x := by
  cases h with
  | uint n => exact .uint n
  | int n => exact .int n

/-- A documented count, read as such. -/
theorem counts_of_may {j : Json V} {k : Str} (hk : k ∈ [b!"n", b!"dt", b!"interval", b!"numPorts", b!"times"]) (hw : Whole j)
    (hs : ∀ n, Member j k (.uint n) → n.toNat < 2 ^ 31) {lo : Nat} (hlo : lo ≤ 1) (h : ∀ n, Member j k (.uint n) → lo ≤ n.toNat) :
    ∃ n : UInt64, Counts j k n ∧ n.toNat < 2 ^ 31 ∧ lo ≤ n.toNat := by
  by_cases hx : ∃ x, Member j k x
  · obtain ⟨x, hx⟩ := hx
    obtain ⟨n, rfl⟩ := hw.natural k hk x hx
    exact ⟨n, Or.inl hx, hs n hx, h n hx⟩
  · exact ⟨1, Or.inr ⟨fun x h => hx ⟨x, h⟩, rfl⟩, by decide, hlo⟩

theorem Spec.AtLeast.uint_le {lo : Nat} {n : UInt64} (h : AtLeast lo (.uint n : Json V)) : lo ≤ n.toNat := by
  cases h with
  | uint _ h _ => exact h

/-- A sane documented description describes an operator. -/
theorem describes_of_doc {j : Json V} {t : Str} (h : DocOp j t) (hs : Sane j) (junk : UInt64 × V) : ∃ o, Describes junk j o := by
  obtain ⟨ht, ⟨xid, hid, id, rfl⟩, hp⟩ := h
  have whole : ∀ k ∈ [b!"n", b!"dt", b!"interval", b!"numPorts", b!"times"], ∀ x, Member j k x → ∃ n, x = .uint n := hs.whole.natural
  cases hp with
  | plain h =>
    simp only [List.mem_cons, List.not_mem_nil, or_false] at h
    rcases h with rfl | rfl | rfl | rfl | rfl | rfl | rfl | rfl | rfl | rfl | rfl | rfl
    · exact ⟨_, .binary ht hid (op := .and) (by decide)⟩
    · exact ⟨_, .binary ht hid (op := .or) (by decide)⟩
    · exact ⟨_, .binary ht hid (op := .plus) (by decide)⟩
    · exact ⟨_, .binary ht hid (op := .minus) (by decide)⟩
    · exact ⟨_, .binary ht hid (op := .mul) (by decide)⟩
    · exact ⟨_, .binary ht hid (op := .div) (by decide)⟩
    · exact ⟨_, .binary ht hid (op := .gtStream) (by decide)⟩
    · exact ⟨_, .binary ht hid (op := .ltStream) (by decide)⟩
    · exact ⟨_, .cumSum ht hid⟩
    · exact ⟨_, .count ht hid⟩
    · exact ⟨_, .difference ht hid⟩
    · exact ⟨_, .identity ht hid⟩
  | value h hv =>
    obtain ⟨x, hx, hx'⟩ := hv
    obtain ⟨v, hv⟩ := isNumber_denotes hx'
    simp only [List.mem_cons, List.not_mem_nil, or_false] at h
    rcases h with rfl | rfl | rfl | rfl | rfl | rfl
    · exact ⟨_, .add ht hid hx hv⟩
    · exact ⟨_, .scale ht hid hx hv⟩
    · exact ⟨_, .power ht hid hx hv⟩
    · exact ⟨_, .constant ht hid hx hv⟩
    · exact ⟨_, .filter ht hid (f := .greaterThan) (by decide) hx hv⟩
    · exact ⟨_, .filter ht hid (f := .equalTo) (by decide) hx hv⟩
  | lessThan hv =>
    obtain ⟨x, hx, hx'⟩ := hv
    obtain ⟨v, hv⟩ := isNumber_denotes hx'.number
    exact ⟨_, .filter ht hid (f := .lessThan) (by decide) hx hv⟩
  | window h hn =>
    obtain ⟨x, hx, _⟩ := hn
    obtain ⟨n, rfl⟩ := whole _ (by simp) x hx
    simp only [List.mem_cons, List.not_mem_nil, or_false] at h
    rcases h with rfl | rfl
    · exact ⟨_, .movAvg ht hid hx⟩
    · exact ⟨_, .peak ht hid hx⟩
  | stdDev hn =>
    obtain ⟨x, hx, _⟩ := hn
    obtain ⟨n, rfl⟩ := whole _ (by simp) x hx
    exact ⟨_, .stdDev ht hid hx⟩
  | resampler h hn =>
    obtain ⟨x, hx, _⟩ := hn
    obtain ⟨n, rfl⟩ := whole _ (by simp) x hx
    simp only [List.mem_cons, List.not_mem_nil, or_false] at h
    rcases h with rfl | rfl
    · exact ⟨_, .cosRes ht hid hx⟩
    · exact ⟨_, .hermRes ht hid hx⟩
  | constRes hn =>
    obtain ⟨x, hx, hx'⟩ := hn
    obtain ⟨n, rfl⟩ := whole _ (by simp) x hx
    have hpos := hx'.uint_le
    refine ⟨_, .constRes ht hid hx (o := ⟨Core.simple id 1, .constRes n junk.1 false junk.2⟩) ?_⟩
    unfold Op.newConstRes
    rw [if_neg]
    intro hle
    have : n.toNat ≤ 0 := hle
    omega
  | ports h hn =>
    obtain ⟨n, h1, h2, h3⟩ := counts_of_may (by simp) hs.whole (hs.whole.small b!"numPorts" (by simp)) (Nat.le_refl 1)
      fun n hm => (hn _ hm).uint_le
    simp only [List.mem_cons, List.not_mem_nil, or_false] at h
    rcases h with rfl | rfl | rfl
    · obtain ⟨c, pm, h4, _⟩ := addPorts_spec (V := V) id 1 n.toNat
      exact ⟨_, .input ht hid h1 h2 (o := ⟨c, .input pm []⟩) (by unfold Op.newInput; rw [h4]; rfl)⟩
    · obtain ⟨c, pm, h4, _⟩ := addPorts_spec (V := V) id 1 n.toNat
      exact ⟨_, .output ht hid h1 h2 (o := ⟨c, .output pm⟩) (by unfold Op.newOutput; rw [h4]; rfl)⟩
    · obtain ⟨o, h4, _⟩ := Demux.newDemux_spec (V := V) id n.toNat h3
      exact ⟨o, .demux ht hid h1 h2 h4⟩
  | join hn =>
    obtain ⟨x, hx⟩ := hs.join ht
    obtain ⟨n, rfl⟩ := whole _ (by simp) x hx
    obtain ⟨o, _, _, h4, _⟩ := Sync.newJoin_spec (V := V) id n.toNat (hn _ hx).uint_le
    exact ⟨o, .join ht hid hx (hs.whole.small _ (by simp) n hx) h4⟩
  | fir hc =>
    obtain ⟨x, hx, l, rfl, hl⟩ := hc
    obtain ⟨vs, hv⟩ := isNumbers_denote hl
    exact ⟨_, .fir ht hid hx hv⟩
  | autoReg hc =>
    obtain ⟨x, hx, ⟨l, rfl, hl⟩, _⟩ := hc
    obtain ⟨vs, hv⟩ := isNumbers_denote hl
    exact ⟨_, .autoReg ht hid hx hv⟩
  | linear hc =>
    obtain ⟨x, hx⟩ := hs.linear ht
    obtain ⟨⟨l, rfl, hl⟩, hlen⟩ := hc x hx
    obtain ⟨vs, hv⟩ := isNumbers_denote hl
    have : 2 ≤ vs.length := by rw [← hv.length_eq]; exact hlen
    obtain ⟨o, _, h4, _⟩ := Sync.newLinear_spec (V := V) id vs this
    exact ⟨o, .linear ht hid hx hv h4⟩
  | timeShift hd hn =>
    obtain ⟨dt, h1, h2, _⟩ := counts_of_may (by simp) hs.whole (hs.whole.shift ht) (Nat.zero_le 1) (fun n _ => Nat.zero_le _) (k := b!"dt")
    obtain ⟨n, h3, h4, _⟩ := counts_of_may (by simp) hs.whole (hs.whole.small b!"times" (by simp)) (Nat.zero_le 1) (fun n _ => Nat.zero_le _)
    exact ⟨_, .timeShift ht hid h1 h2 h3 h4⟩
  | «variable» hv =>
    by_cases hx : ∃ x, Member j b!"value" x
    · obtain ⟨x, hx⟩ := hx
      obtain ⟨n, rfl, hn⟩ := hs.whole.value ht x hx
      exact ⟨_, .variable ht hid (Or.inl hx) hn⟩
    · exact ⟨_, .variable ht hid (n := 0) (Or.inr ⟨fun x h => hx ⟨x, h⟩, rfl⟩) (by decide)⟩
  | function _ => exact absurd ht hs.noFunction

/-! ## Programs -/

theorem doc_noPipeline {x : Json V} {t : Str} (h : DocOp x t) : ¬ HasType x b!"Pipeline" := by
  intro hp
  have := h.type.unique hp
  cases this
  exact absurd (doc_listed h.params) (by decide)

theorem readOp_of_describes {junk : Junk V} {fuel : Nat} {j : Json V} {m : Mem V} {o : Op V} (h : Describes (junk m.next) j o) :
    readOp junk (fuel + 1) j m = .ok (o, m) := by
  obtain ⟨t, ht, hp, hs⟩ := simpleOpOf_of_describes h
  unfold readOp
  rw [ht.at]
  show (if t = b!"Pipeline" then _ else _) = _
  rw [if_neg hp, hs]
  rfl

theorem buildOps_total {junk : Junk V} {fuel : Nat} (xs : List (Json V)) (h : ∀ x ∈ xs, (∃ t, DocOp x t) ∧ Sane x) :
    ∀ (ops : Map Nat) (m : Mem V), ∃ ops' m', buildOps (readOp junk (fuel + 1)) xs ops m = .ok (ops', m') := by
  induction xs with
  | nil => intro ops m; exact ⟨ops, m, rfl⟩
  | cons x xs ih =>
    intro ops m
    obtain ⟨⟨t, hd⟩, hs⟩ := h x List.mem_cons_self
    obtain ⟨o, ho⟩ := describes_of_doc hd hs (junk m.next)
    obtain ⟨y, hy, id, rfl⟩ := hd.id
    unfold buildOps
    rw [hy.sub]
    show ∃ ops' m', (readOp junk (fuel + 1) x m >>= _) = _
    rw [readOp_of_describes ho]
    show ∃ ops' m', (if ops.has id then _ else _) = _
    have ih := ih fun y hy => h y (List.mem_cons_of_mem _ hy)
    split
    · exact ih _ _
    · exact ih _ _

theorem docConn_read {c : Json V} (h : DocConn c) : ∃ x, readConn c = .ok x := by
  obtain ⟨⟨f, hf, fs, rfl⟩, ⟨t, ht, ts, rfl⟩, h3, h4, _⟩ := h
  have opt : ∀ k, May c k IsText → ∃ s, c.value k [] Json.getStr = .ok s := by
    intro k hk
    by_cases hx : ∃ x, Member c k x
    · obtain ⟨x, hx⟩ := hx
      obtain ⟨s, rfl⟩ := hk x hx
      exact ⟨s, by rw [hx.value]; rfl⟩
    · obtain ⟨m, rfl⟩ := member_obj hf
      refine ⟨[], ?_⟩
      unfold Json.value
      dsimp only
      cases hm : Map.find? m k with
      | none => rfl
      | some y => exact absurd ⟨y, m, rfl, hm⟩ hx
  obtain ⟨tp, htp⟩ := opt _ h4
  obtain ⟨fp, hfp⟩ := opt _ h3
  refine ⟨⟨fs, ts, tp, fp⟩, ?_⟩
  unfold readConn
  rw [hf.sub, ht.sub, htp, hfp]
  rfl

theorem connect_total (c child : Core V) (b : Nat) (op ip : Str) :
    (∃ r, c.connect child b op ip = .ok r) ∨ c.connect child b op ip = .error (.exc .runtime) := by
  unfold Core.connect
  dsimp only
  generalize (if op = [] then _ else op) = p
  generalize (if ip = [] then _ else ip) = q
  split
  · exact Or.inr rfl
  · split
    · exact Or.inr rfl
    · split
      · split
        · exact Or.inl ⟨_, rfl⟩
        · exact Or.inl ⟨_, rfl⟩
      · exact Or.inl ⟨_, rfl⟩

theorem connect_of_means {c child : Core V} {b : Nat} {op ip p q : Str} (hp : MeansOutput c op p) (hq : MeansInput child ip q) :
    ∃ c', c.connect child b op ip = .ok (some c') := by
  obtain ⟨h1, h2, h3⟩ := hp
  obtain ⟨h4, h5, h6⟩ := hq
  unfold Core.connect
  dsimp only
  generalize e1 : (if op = [] then _ else op) = p'
  generalize e2 : (if ip = [] then _ else ip) = q'
  have hp : p' = p := by
    rw [← e1]
    rcases h3 with rfl | ⟨rfl, h3⟩
    · rw [if_neg h2]
    · rw [if_pos rfl, h3]
  have hq : q' = q := by
    rw [← e2]
    rcases h6 with rfl | ⟨rfl, h6, h7⟩
    · rw [if_neg h5]
    · have ha : child.allInputs = [q] := by
        unfold Core.allInputs
        rw [h6, h7]
        rfl
      have hd : child.isData q = true := by
        unfold Core.isData
        rw [Map.has_iff, h6]
        exact List.mem_singleton.2 rfl
      rw [if_pos rfl, ha]
      dsimp only
      rw [if_pos hd]
  rw [hp, hq, if_neg h5, if_neg h2, if_pos]
  · split
    · exact ⟨_, rfl⟩
    · exact ⟨_, rfl⟩
  · simp only [Bool.and_eq_true, List.contains_iff_mem]
    exact ⟨h1, List.mem_append.2 h4⟩

/-- Making a connection between operators in the table amounts to `connect`. -/
theorem makeConn_eq {ops : Map Nat} {x : ConnDesc} {m : Mem V} {a b : Nat} {o t : Op V} (ha : ops.find? x.from' = some a) (hb : ops.find? x.to = some b)
    (ho : m.heap a = some o) (ht : m.heap b = some t) (hs : Simple o) :
    makeConn ops x m = match o.core.connect t.core b x.fromPort x.toPort with
      | .error e => .error e
      | .ok none => throwExc .runtime
      | .ok (some c) => .ok { m with heap := fun y => if y = a then some { o with core := c } else m.heap y } := by
  unfold makeConn
  rw [mapAt_ok.2 ha, mapAt_ok.2 hb]
  simp only [bind, Except.bind]
  have key : connectOp a b x.fromPort x.toPort m.st = localRun a (Op.connect t.core b x.fromPort x.toPort) m.st := by
    unfold connectOp
    simp only [bind, M.bind, getOp, Mem.st, ho, ht]
    unfold Simple at hs
    cases hk : o.kind <;> rw [hk] at hs <;> first | rfl | exact hs.elim
  rw [key]
  unfold localRun
  simp only [Mem.st, ho, Op.connect]
  cases o.core.connect t.core b x.fromPort x.toPort with
  | error e => rfl
  | ok r =>
    cases r with
    | none => rfl
    | some c => rfl

theorem makeConn_total {ops : Map Nat} {x : ConnDesc} {m : Mem V} (hm : Making ops m) :
    (∃ m', makeConn ops x m = .ok m') ∨ ∃ e ∈ [Exc.runtime, .outOfRange], makeConn ops x m = .error (.exc e) := by
  cases ha : ops.find? x.from' with
  | none =>
    right
    refine ⟨.outOfRange, by simp, ?_⟩
    unfold makeConn mapAt
    rw [ha]
    rfl
  | some a =>
    cases hb : ops.find? x.to with
    | none =>
      right
      refine ⟨.outOfRange, by simp, ?_⟩
      unfold makeConn
      rw [mapAt_ok.2 ha]
      unfold mapAt
      rw [hb]
      rfl
    | some b =>
      obtain ⟨o, ho, _⟩ := hm.indexed.listed _ _ ha
      obtain ⟨t, ht, _⟩ := hm.indexed.listed _ _ hb
      rw [makeConn_eq ha hb ho ht (hm.built a o ho).simple]
      rcases connect_total o.core t.core b x.fromPort x.toPort with ⟨r, hr⟩ | he
      · rw [hr]
        cases r with
        | none => exact Or.inr ⟨.runtime, by simp, rfl⟩
        | some c => exact Or.inl ⟨_, rfl⟩
      · rw [he]; exact Or.inr ⟨.runtime, by simp, rfl⟩

theorem makeConns_total {ops : Map Nat} (js : List (Json V)) (hd : ∀ c ∈ js, DocConn c) : ∀ {m : Mem V}, Making ops m →
    (∃ m', makeConns ops js m = .ok m') ∨ ∃ e ∈ [Exc.runtime, .outOfRange], makeConns ops js m = .error (.exc e) := by
  induction js with
  | nil => intro m _; exact Or.inl ⟨m, rfl⟩
  | cons c js ih =>
    intro m hm
    obtain ⟨x, hx⟩ := docConn_read (hd c List.mem_cons_self)
    unfold makeConns
    rw [hx]
    show (∃ m', (makeConn ops x m >>= fun m => makeConns ops js m) = .ok m') ∨ ∃ e ∈ [Exc.runtime, .outOfRange],
      (makeConn ops x m >>= fun m => makeConns ops js m) = .error (.exc e)
    rcases makeConn_total (x := x) hm with ⟨m', h⟩ | ⟨e, he, h⟩
    · rw [h]
      exact ih (fun c hc => hd c (List.mem_cons_of_mem _ hc)) (makeConn_making hm h)
    · rw [h]
      exact Or.inr ⟨e, he, rfl⟩

/-- The ports of an operator do not depend on uninitialised memory. -/
theorem simpleOpOf_core {t : Str} {x : Json V} {junk junk' : UInt64 × V} {o o' : Op V} (h : simpleOpOf t x junk = some (.ok o))
    (h' : simpleOpOf t x junk' = some (.ok o')) : o.core = o'.core := by
  by_cases ht : t = b!"ConstantResampler"
  · subst ht
    have key : ∀ {junk : UInt64 × V} {o : Op V}, simpleOpOf b!"ConstantResampler" x junk = some (.ok o) → ∃ id, HasId x id ∧ o.core = Core.simple id 1 := by
      intro junk o h
      have h : (do
        let id ← (← x.sub b!"id").getStr
        let dt ← (← x.sub b!"interval").getU64
        Op.newConstRes id dt junk.1 junk.2 : Except Err (Op V)) = .ok o := Option.some.inj h
      obtain ⟨id, hid, h⟩ := id_bind h
      obtain ⟨y, _, h⟩ := bind_eq_ok.1 h
      obtain ⟨dt, _, h⟩ := bind_eq_ok.1 h
      unfold Op.newConstRes at h
      split at h
      · cases h
      · cases h; exact ⟨id, hid, rfl⟩
    obtain ⟨id, h1, h2⟩ := key h
    obtain ⟨id', h3, h4⟩ := key h'
    cases h1.unique h3
    rw [h2, h4]
  · have : simpleOpOf t x junk = simpleOpOf t x junk' := by
      unfold simpleOpOf otherOpOf
      rw [if_neg ht, if_neg ht]
    rw [this, h'] at h
    cases h
    rfl

theorem firstOf_core {xs : List (Json V)} {id : Str} {x : Json V} (hx : FirstWith xs id x) {o : Op V} (ho : FirstOf xs o) (hid : o.core.id = id)
    {junk : UInt64 × V} {o1 : Op V} (hd : Describes junk x o1) : o.core = { o1.core with outputs := o.core.outputs } := by
  obtain ⟨pre, y, post, t, junk', o0, h1, h2, h3, h4, h5, h6⟩ := ho
  obtain ⟨pre', post', h7, h8, h9⟩ := hx
  rw [hid] at h2 h3
  have hpre : pre = pre' ∧ y :: post = x :: post' := by
    have he : pre ++ y :: post = pre' ++ x :: post' := h1.symm.trans h7
    rcases List.append_eq_append_iff.1 he with ⟨l, e1, e2⟩ | ⟨l, e1, e2⟩
    · cases l with
      | nil => simp only [List.append_nil] at e1; exact ⟨e1.symm, e2⟩
      | cons z l =>
        cases e2
        exact absurd h2 (h9 y (by rw [e1]; simp))
    · cases l with
      | nil => simp only [List.append_nil] at e1; exact ⟨e1, e2.symm⟩
      | cons z l =>
        cases e2
        exact absurd h8 (h3 x (by rw [e1]; simp))
  cases hpre.2
  obtain ⟨t', g1, _, g2⟩ := simpleOpOf_of_describes hd
  cases h4.unique g1
  have hc := simpleOpOf_core h5 g2
  rw [h6]
  dsimp only
  rw [hc]

theorem makeConns_connectable {ops : Map Nat} {xs : List (Json V)} (hops : ∀ x ∈ xs, ∀ id, HasId x id → ops.has id = true) (js : List (Json V))
    (hd : ∀ c ∈ js, DocConn c) (hc : ∀ c ∈ js, Connectable xs c) : ∀ {m : Mem V}, Making ops m → (∀ a o, m.heap a = some o → FirstOf xs o) →
    ∃ m', makeConns ops js m = .ok m' := by
  induction js with
  | nil => intro m _ _; exact ⟨m, rfl⟩
  | cons c js ih =>
    intro m hm hf
    obtain ⟨x, hx⟩ := docConn_read (hd c List.mem_cons_self)
    obtain ⟨f, t, y, z, junk, o1, o2, g1, g2, g3, g4, g5, g6, ⟨n, p, g7, g8⟩, n', q, g9, g10⟩ := hc c List.mem_cons_self
    obtain ⟨r1, r2, r3, r4⟩ := readConn_ok hx
    have names : ∀ {k p p'}, NamesPort c k p → NamesPort c k p' → p = p' := by
      intro k p p' g g'
      rcases g with g | ⟨g, rfl⟩ <;> rcases g' with g' | ⟨g', rfl⟩
      · cases g.unique g'; rfl
      · exact absurd g (g' _)
      · exact absurd g' (g _)
      · rfl
    cases r1.unique g1
    cases r2.unique g2
    cases names r3 g7
    cases names r4 g9
    have listed : ∀ {id : Str} {w : Json V}, FirstWith xs id w → ∃ a o, ops.find? id = some a ∧ m.heap a = some o ∧ o.core.id = id := by
      intro id w ⟨pre, post, e, hw, _⟩
      have hh := hops w (by rw [e]; simp) id hw
      unfold Map.has at hh
      cases hfi : ops.find? id with
      | none => rw [hfi] at hh; cases hh
      | some a =>
        obtain ⟨o, h1, h2⟩ := hm.indexed.listed _ _ hfi
        exact ⟨a, o, rfl, h1, h2⟩
    obtain ⟨a, o, h1, h2, h3⟩ := listed g3
    obtain ⟨b, o', h4, h5, h6⟩ := listed g4
    have c1 := firstOf_core g3 (hf a o h2) h3 g5
    have c2 := firstOf_core g4 (hf b o' h5) h6 g6
    have m1 : MeansOutput o.core x.fromPort p := by
      rw [c1]; exact g8
    have m2 : MeansInput o'.core x.toPort q := by
      rw [c2]; exact g10
    obtain ⟨c', hc'⟩ := connect_of_means (b := b) m1 m2
    have hmake : ∃ m', makeConn ops x m = .ok m' := by
      rw [makeConn_eq h1 h4 h2 h5 (hm.built a o h2).simple, hc']
      exact ⟨_, rfl⟩
    obtain ⟨m', hm'⟩ := hmake
    have hstep : makeConns ops (c :: js) m = makeConns ops js m' := by
      rw [makeConns, hx]
      show (makeConn ops x m >>= fun m => makeConns ops js m) = _
      rw [hm']
      rfl
    rw [hstep]
    have one : makeConns ops [c] m = .ok m' := by
      rw [makeConns, hx]
      show (makeConn ops x m >>= fun m => makeConns ops [] m) = _
      rw [hm']
      rfl
    exact ih (fun c hc => hd c (List.mem_cons_of_mem _ hc)) (fun d hdm => hc d (List.mem_cons_of_mem _ hdm)) (makeConn_making hm hm')
      (makeConns_first [c] hm hf one)

end Rtbot
