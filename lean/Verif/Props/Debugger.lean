import Verif.Lemmas.Debugger
import Verif.Props.JsRun

/-! # C84, C85: the debugger of the command line -/

namespace Rtbot
open Spec Debugger
variable {V : Type} [Num V]

theorem acts_position {cell : V → V → Str} {rs : List (JsReport V)} : ∀ (l : List DbgAct) {d : Dbg V}, Inv rs d →
    (d.acts cell l).iteration = positionAfter rs.length l d.iteration
  | [], _, _ => rfl
  | a :: l, d, h => by
    have := acts_position (cell := cell) l (act_inv (cell := cell) h a)
    show ((d.act cell a).state.acts cell l).iteration = _
    rw [this]
    cases a with
    | forward =>
      obtain ⟨c, hc⟩ := columns_state cell { d with iteration := min (d.iteration + 1) d.maxIteration }
      unfold Dbg.act
      dsimp only
      rw [hc, positionAfter, h.max]
      have : (if d.iteration < rs.length then d.iteration + 1 else rs.length) = min (d.iteration + 1) rs.length := by
        have := h.iter
        split <;> omega
      rw [this]
    | backward =>
      obtain ⟨c, hc⟩ := columns_state cell { d with iteration := d.iteration - 1 }
      unfold Dbg.act
      dsimp only
      rw [hc, positionAfter]
    | select id b =>
      obtain ⟨c, hc⟩ := columns_state cell (d.updateOperator id b)
      unfold Dbg.act
      dsimp only
      rw [hc, positionAfter]
      rfl

theorem setSelected_nodup {id : Str} {b : Bool} : ∀ {ops : List DbgOp}, (ops.map (·.id)).Nodup →
    setSelected id b ops = ops.map fun op => { op with selected := if id = op.id then b else op.selected }
  | [], _ => rfl
  | x :: ops, h => by
    have h' := List.nodup_cons.1 (by simpa using h : (x.id :: ops.map (·.id)).Nodup)
    rw [setSelected, List.map_cons]
    split
    · rename_i e
      rw [if_pos e.symm]
      congr 1
      have : ∀ o ∈ ops, ({ o with selected := if id = o.id then b else o.selected } : DbgOp) = o := by
        intro o ho
        rw [if_neg]
        intro e'
        exact h'.1 (List.mem_map.2 ⟨o, ho, by rw [e, ← e']⟩)
      rw [List.map_congr_left this]
      simp
    · rename_i e
      rw [if_neg (fun e' => e e'.symm), setSelected_nodup h'.2]

theorem acts_selected {cell : V → V → Str} {rs : List (JsReport V)} : ∀ (l : List DbgAct) {d : Dbg V}, Inv rs d → (d.operators.map (·.id)).Nodup →
    (d.acts cell l).operators = d.operators.map fun op => { op with selected := selectedAfter op.id l op.selected }
  | [], d, _, _ => by simp [Dbg.acts, selectedAfter]
  | a :: l, d, h, hn => by
    have hop : (d.act cell a).state.operators = match a with
        | .select id b => d.operators.map fun op => { op with selected := if id = op.id then b else op.selected }
        | _ => d.operators := by
      cases a with
      | forward =>
        obtain ⟨c, hc⟩ := columns_state cell { d with iteration := min (d.iteration + 1) d.maxIteration }
        unfold Dbg.act
        dsimp only
        rw [hc]
      | backward =>
        obtain ⟨c, hc⟩ := columns_state cell { d with iteration := d.iteration - 1 }
        unfold Dbg.act
        dsimp only
        rw [hc]
      | select id b =>
        obtain ⟨c, hc⟩ := columns_state cell (d.updateOperator id b)
        unfold Dbg.act
        dsimp only
        rw [hc]
        exact setSelected_nodup hn
    show ((d.act cell a).state.acts cell l).operators = _
    have hids : ((d.act cell a).state.operators.map (·.id)).Nodup := by
      rw [hop]
      cases a with
      | forward => exact hn
      | backward => exact hn
      | select id b => simpa [List.map_map, Function.comp_def] using hn
    rw [acts_selected l (act_inv h a) hids, hop]
    cases a with
    | forward => rfl
    | backward => rfl
    | select id b => simp [List.map_map, Function.comp_def, selectedAfter]

/-- C84: whatever the user does, and whether the actions throw or not, the position is the number of steps forward less the steps back, kept between 0 and the number
of reports, an operator is selected when the last choice for it says so, and the ids, types and ports of the operators stay. -/
theorem C84_state {cell : V → V → Str} {ops : List (JsOp V)} {rs : List (JsReport V)} {d : Dbg V} (h : Dbg.init cell ops rs Dbg.start = .ok () d) (l : List DbgAct) :
    (d.acts cell l).iteration = positionAfter rs.length l 0 ∧ (d.acts cell l).iteration ≤ rs.length ∧ (d.acts cell l).result = some rs ∧
      ((ops.map (·.id)).Nodup → List.Forall₂ (fun x y => y.id = x.id ∧ y.type = x.type ∧ dbgPorts x.plain = .ok y.ports ∧ y.selected = selectedAfter x.id l true)
        ops (d.acts cell l).operators) := by
  obtain ⟨hi, h0, hid, hty, hsel, hports, _⟩ := init_inv h
  have := acts_inv (cell := cell) l hi
  refine ⟨by rw [acts_position l hi, h0], this.iter, this.result, fun hn => ?_⟩
  rw [acts_selected l hi (by rw [hid]; exact hn)]
  clear this hi hn h h0
  generalize d.operators = os at hid hty hsel hports
  induction hports with
  | nil => exact .nil
  | cons hp _ ih =>
    simp only [List.map_cons, List.cons.injEq] at hid hty
    refine .cons ⟨hid.1, hty.1, hp, ?_⟩ (ih hid.2 hty.2 fun op ho => hsel op (by simp [ho]))
    dsimp only
    rw [hsel _ (by simp), hid.1]

/-- C84: nothing of an earlier program is left when the debugger is given another one at the first position. -/
theorem C84_again {cell : V → V → Str} {ops : List (JsOp V)} {rs : List (JsReport V)} {d0 d : Dbg V} (h0 : d0.iteration = 0) :
    Dbg.init cell ops rs d0 = .ok () d ↔ Dbg.init cell ops rs Dbg.start = .ok () d := by
  obtain ⟨it, mx, p, r, os, cs⟩ := d0
  cases h0
  unfold Dbg.init Dbg.computeOperators Dbg.start
  dsimp only
  cases ops.mapM dbgOp with
  | error e => constructor <;> (intro h; cases h)
  | ok l => exact Iff.rfl

theorem tableAt_text {cell : V → V → Str} {text : JsMsg V → Str} (ht : ∀ t v, text (t, some v) = cell t v) {rs : List (JsReport V)} {ops : List DbgOp} {k : Nat}
    (hn : ∀ r ∈ (rs.drop (k - 1)).take 11, AllNumbers ops r) : tableAt (dbgMsg cell) rs ops k = tableAt text rs ops k := by
  cases k with
  | zero => rfl
  | succ k =>
    rw [tableAt, tableAt]
    congr 1
    refine List.map_congr_left fun x hx => ?_
    congr 1
    refine List.map_congr_left fun c hc => ?_
    have hr := hn x.1 (List.fst_mem_of_mem_zipIdx hx) c hc
    have : (reportedAt x.1 c.1 c.2).map (dbgMsg cell) = (reportedAt x.1 c.1 c.2).map text := by
      refine List.map_congr_left fun m hm => ?_
      obtain ⟨v, hv⟩ := Option.isSome_iff_exists.1 (hr m hm)
      obtain ⟨t, o⟩ := m
      dsimp only at hv
      subst hv
      rw [ht]
      rfl
    unfold shownText
    cases hrep : reportedAt x.1 c.1 c.2 with
    | nil => rfl
    | cons m ms =>
      rw [hrep] at this
      dsimp only
      rw [this]

/-- The state an action asks for, before the table is computed. -/
def dbgAsked (a : DbgAct) (d : Dbg V) : Nat × List DbgOp :=
  match a with
  | .forward => (min (d.iteration + 1) d.maxIteration, d.operators)
  | .backward => (d.iteration - 1, d.operators)
  | .select id sel => (d.iteration, setSelected id sel d.operators)

theorem act_columns {cell : V → V → Str} {a : DbgAct} {d : Dbg V} :
    d.act cell a = Dbg.computeColumns cell { d with iteration := (dbgAsked a d).1, operators := (dbgAsked a d).2 } := by
  cases a <;> rfl

omit [Num V] in
theorem dbgAsked_inv {rs : List (JsReport V)} {d : Dbg V} (h : Inv rs d) (a : DbgAct) :
    Inv rs { d with iteration := (dbgAsked a d).1, operators := (dbgAsked a d).2 } := by
  cases a with
  | forward => exact ⟨h.result, h.max, by have := h.max; simp only [dbgAsked]; omega, h.ports⟩
  | backward => exact ⟨h.result, h.max, by have := h.iter; simp only [dbgAsked]; omega, h.ports⟩
  | select id b => exact ⟨h.result, h.max, h.iter, setSelected_ports (P := fun op => PortList op.ports) (fun _ h => h) h.ports⟩

/-- C84: after any actions, an action that leads to the position 0 or to one with ten more reports returns, and the table shows for each selected port what the reports say,
eleven of them from the one before the position on. The ids have to be good, an operator in a report has to be there with all its ports, and the values have to be
numbers.

Missing: the positions nearer to the end, operators that emit on some of their ports, ids with a colon or of what objects inherit, and values that are `null`. These
are C84_end_violated, C84_ports_violated, C84_colon_violated, C84_inherited_violated and C84_null_violated. -/
theorem C84_table_partial {cell : V → V → Str} {text : JsMsg V → Str} (ht : ∀ t v, text (t, some v) = cell t v) {ops : List (JsOp V)} {rs : List (JsReport V)}
    {d : Dbg V} (h : Dbg.init cell ops rs Dbg.start = .ok () d) (l : List DbgAct) (a : DbgAct)
    (hid : ∀ op ∈ (dbgAsked a (d.acts cell l)).2, op.selected = true → GoodId op.id)
    (hend : (dbgAsked a (d.acts cell l)).1 = 0 ∨ (dbgAsked a (d.acts cell l)).1 + 10 ≤ rs.length)
    (hall : ∀ r ∈ (rs.drop ((dbgAsked a (d.acts cell l)).1 - 1)).take 11, AllPorts (dbgAsked a (d.acts cell l)).2 r ∧ AllNumbers (dbgAsked a (d.acts cell l)).2 r) :
    ∃ d', (d.acts cell l).act cell a = .ok () d' ∧ d'.iteration = positionAfter rs.length (l ++ [a]) 0 ∧
      d'.columns = tableAt text rs d'.operators d'.iteration := by
  obtain ⟨hi, h0, _⟩ := init_inv h
  have hinv := dbgAsked_inv (acts_inv (cell := cell) l hi) a
  have htab := columns_table (cell := cell) hinv hid hend fun r hr => (hall r hr).1
  refine ⟨_, act_columns.trans htab, ?_, ?_⟩
  · have : (d.acts cell (l ++ [a])) = ((d.acts cell l).act cell a).state := by simp [Dbg.acts]
    have hp := acts_position (cell := cell) (l ++ [a]) hi
    rw [this, act_columns, htab, h0] at hp
    exact hp
  · exact tableAt_text ht fun r hr => (hall r hr).2

/-- C84: the first table has the titles only. -/
theorem C84_first {cell : V → V → Str} {ops : List (JsOp V)} {rs : List (JsReport V)} {d : Dbg V} (h : Dbg.init cell ops rs Dbg.start = .ok () d)
    (text : JsMsg V → Str) : d.columns = tableAt text rs d.operators 0 := (init_inv h).2.2.2.2.2.2

/-- Violation of C84: an action that leads to one of the last nine positions throws as soon as an operator with an id without a colon is selected: the code reads
reports that are not there. In particular every step forward throws when there are fewer than eleven reports. -/
theorem C84_end_violated {cell : V → V → Str} {ops : List (JsOp V)} {rs : List (JsReport V)} {d : Dbg V} (h : Dbg.init cell ops rs Dbg.start = .ok () d) (l : List DbgAct)
    (a : DbgAct) (h0 : (dbgAsked a (d.acts cell l)).1 ≠ 0) (hend : rs.length < (dbgAsked a (d.acts cell l)).1 + 10) {op : DbgOp}
    (ho : op ∈ (dbgAsked a (d.acts cell l)).2) (hs : op.selected = true) (hne : op.id ≠ []) (hc : (58 : UInt8) ∉ op.id) :
    ∃ d', (d.acts cell l).act cell a = .err (.exc .runtime) d' ∧ d'.columns = (d.acts cell l).columns := by
  have hinv := dbgAsked_inv (acts_inv (cell := cell) l (init_inv h).1) a
  have hcell : ∀ p, cellAt cell (none : Option (JsReport V)) op.id p = .error (.exc .runtime) := fun p => by
    unfold cellAt
    rw [if_neg hne]
    rfl
  have hp := hinv.ports op ho
  have hiter := hinv.iter
  have hnone : rs[rs.length]? = none := by simp
  have hrange : (dbgAsked a (d.acts cell l)).1 ≤ rs.length + 1 ∧ rs.length < (dbgAsked a (d.acts cell l)).1 + 10 := ⟨by dsimp only at hiter; omega, hend⟩
  by_cases hl : 1 < op.ports.length
  · cases hps : op.ports with
    | nil => exact absurd hps hp.ne
    | cons p ps =>
      refine ⟨_, act_columns.trans (columns_throws hinv h0 ho hs (hd := joinName op.id p) (i := rs.length) ?_ hrange ?_), rfl⟩
      · unfold dbgHeaders
        rw [if_pos hl]
        simp [hps]
      · exact ⟨_, by rw [hnone, dbgCell_join hc (hp.clean p (by simp [hps])), hcell]⟩
  · refine ⟨_, act_columns.trans (columns_throws hinv h0 ho hs (hd := op.id) (i := rs.length) ?_ hrange ?_), rfl⟩
    · unfold dbgHeaders
      rw [if_neg hl]
      simp
    · exact ⟨_, by rw [hnone, dbgCell_id hc, hcell]⟩

/-- Violation of C84: when one of the eleven reports has an operator without one of the ports that are shown for it, the action throws. This is so for every
Demultiplexer with two ports that is shown when it emits on one of them. -/
theorem C84_ports_violated {cell : V → V → Str} {ops : List (JsOp V)} {rs : List (JsReport V)} {d : Dbg V} (h : Dbg.init cell ops rs Dbg.start = .ok () d) (l : List DbgAct)
    (a : DbgAct) (h0 : (dbgAsked a (d.acts cell l)).1 ≠ 0) {op : DbgOp} (ho : op ∈ (dbgAsked a (d.acts cell l)).2) (hs : op.selected = true) (hne : op.id ≠ [])
    (hc : (58 : UInt8) ∉ op.id) {i : Nat} (hi : (dbgAsked a (d.acts cell l)).1 ≤ i + 1 ∧ i < (dbgAsked a (d.acts cell l)).1 + 10) {r : JsReport V} (hr : rs[i]? = some r)
    {ports : Map (List (JsMsg V))} (hf : r.find? op.id = some ports) {p : Str} (hp : p ∈ op.ports) (hm : ports.find? p = none) :
    ∃ d', (d.acts cell l).act cell a = .err (.exc .runtime) d' ∧ d'.columns = (d.acts cell l).columns := by
  have hinv := dbgAsked_inv (acts_inv (cell := cell) l (init_inv h).1) a
  have hpl := hinv.ports op ho
  have hcell : cellAt cell (some r) op.id p = .error (.exc .runtime) := by
    unfold cellAt
    rw [if_neg hne]
    simp only [hf, hm]
    rfl
  by_cases hl : 1 < op.ports.length
  · refine ⟨_, act_columns.trans (columns_throws hinv h0 ho hs (hd := joinName op.id p) ?_ hi ?_), rfl⟩
    · unfold dbgHeaders
      rw [if_pos hl]
      exact List.mem_map.2 ⟨p, hp, rfl⟩
    · exact ⟨_, by rw [hr, dbgCell_join hc (hpl.clean p hp), hcell]⟩
  · refine ⟨_, act_columns.trans (columns_throws hinv h0 ho hs (hd := op.id) ?_ hi ?_), rfl⟩
    · unfold dbgHeaders
      rw [if_neg hl]
      simp
    · have : p = b!"o1" := by
        rw [hpl.single hl] at hp
        simpa using hp
      subst this
      exact ⟨_, by rw [hr, dbgCell_id hc, hcell]⟩

/-- Violation of C84: an operator with the id of something that every object inherits makes each step to a report without it throw. -/
theorem C84_inherited_violated {cell : V → V → Str} {ops : List (JsOp V)} {rs : List (JsReport V)} {d : Dbg V} (h : Dbg.init cell ops rs Dbg.start = .ok () d) (l : List DbgAct)
    (a : DbgAct) (h0 : (dbgAsked a (d.acts cell l)).1 ≠ 0) {op : DbgOp} (ho : op ∈ (dbgAsked a (d.acts cell l)).2) (hs : op.selected = true) (hin : op.id ∈ inherited)
    {i : Nat} (hi : (dbgAsked a (d.acts cell l)).1 ≤ i + 1 ∧ i < (dbgAsked a (d.acts cell l)).1 + 10) {r : JsReport V} (hr : rs[i]? = some r)
    (hf : r.find? op.id = none) : ∃ d', (d.acts cell l).act cell a = .err (.exc .runtime) d' := by
  have hinv := dbgAsked_inv (acts_inv (cell := cell) l (init_inv h).1) a
  have hgood : ∀ s ∈ inherited, s ≠ [] ∧ (58 : UInt8) ∉ s := by decide
  have hpl := hinv.ports op ho
  have hcell : ∀ p, cellAt cell (some r) op.id p = .error (.exc .runtime) := fun p => by
    unfold cellAt
    rw [if_neg (hgood _ hin).1]
    simp only [hf, List.contains_iff_mem.2 hin]
    rfl
  by_cases hl : 1 < op.ports.length
  · cases hps : op.ports with
    | nil => exact absurd hps hpl.ne
    | cons p ps =>
      refine ⟨_, act_columns.trans (columns_throws hinv h0 ho hs (hd := joinName op.id p) ?_ hi ?_)⟩
      · unfold dbgHeaders
        rw [if_pos hl]
        simp [hps]
      · exact ⟨_, by rw [hr, dbgCell_join (hgood _ hin).2 (hpl.clean p (by simp [hps])), hcell]⟩
  · refine ⟨_, act_columns.trans (columns_throws hinv h0 ho hs (hd := op.id) ?_ hi ?_)⟩
    · unfold dbgHeaders
      rw [if_neg hl]
      simp
    · exact ⟨_, by rw [hr, dbgCell_id (hgood _ hin).2, hcell]⟩

/-- Violation of C84: a value that is not a number is shown as 0. -/
theorem C84_null_violated (cell : V → V → Str) (t : V) : dbgMsg cell (t, none) = dbgMsg cell (t, some (Num.ofNat 0)) := rfl

/-! ## The command -/

theorem prepare_numbers {time value : Str → Option V} {time' value' : Option Str → Option V} (hT : ∀ s, time' (some s) = time s) (hV : ∀ s, value' (some s) = value s)
    (hv : value' none = none) : ∀ rows : List (List Str), dbgPrepare time' value' rows = (numberRows time value rows).map fun r => (r.1, [r.2])
  | [] => rfl
  | [] :: rows => by
    rw [dbgPrepare, prepare_numbers hT hV hv rows]
    simp only [List.getElem?_nil, hv, numberRows, List.filterMap_cons]
    cases time' none <;> rfl
  | [t] :: rows => by
    rw [dbgPrepare, prepare_numbers hT hV hv rows]
    simp only [List.getElem?_cons_zero, List.getElem?_cons_succ, List.getElem?_nil, hv, numberRows, List.filterMap_cons]
    cases time' (some t) <;> rfl
  | (t :: v :: rest) :: rows => by
    rw [dbgPrepare, prepare_numbers hT hV hv rows]
    simp only [List.getElem?_cons_zero, List.getElem?_cons_succ, hT, hV, numberRows, List.filterMap_cons]
    cases time t with
    | none => rfl
    | some x => cases value v <;> rfl

/-- C85: the command calls the program once for each row of the data whose first two columns are numbers, in order, and ignores the other rows; the debugger then starts
with as many reports as there are such rows, each what the program reported for its row. The program must have one entry port, or the run does not start as it should.

Missing: programs with more entry ports; see C85_inputs_violated. -/
theorem C85_command_partial {js : JsEnv V} {cell : V → V → Str} {junk : Junk V} {time value : Str → Option V} {time' value' : Option Str → Option V}
    (hT : ∀ s, time' (some s) = time s) (hV : ∀ s, value' (some s) = value s) (hv : value' none = none) {p : JsProgram V} {rows : List (List Str)}
    {F : Factory V} {P P' : Prog V} {port : Str} (h : JsRunnable js junk p ((numberRows time value rows).map fun r => (r.1, [r.2])) F P [port])
    {rs : List (ProgMsg V)} (hr : debugRun js.api.fuel (jsCalls js [port] ((numberRows time value rows).map fun r => (r.1, [r.2]))) P = .ok rs P') :
    rs.length = (numberRows time value rows).length ∧
      ∃ F', (∀ b, SameView b F F') ∧ dbgCommand js cell junk time' value' p rows F =
        match Dbg.init cell p.operators (rs.map js.report) Dbg.start with
        | .err e _ => .err e F'
        | .ok _ d => .ok d F' := by
  obtain ⟨g1, F', g2, g3⟩ := C74_extended h hr []
  refine ⟨by simpa using g1, F', g2, ?_⟩
  unfold dbgCommand
  rw [prepare_numbers hT hV hv, g3]
  have hz : ((((numberRows time value rows).map fun r => (r.1, [r.2])).zip rs).map fun x => (jsRow x.1.1 [port] x.1.2, js.report x.2)).map (·.2) = rs.map js.report := by
    rw [List.map_map]
    have : (((numberRows time value rows).map fun r => (r.1, [r.2])).zip rs).map (fun x => x.2) = rs := List.map_snd_zip (by rw [g1])
    conv_rhs => rw [← this, List.map_map]
    rfl
  dsimp only
  rw [List.nil_append, hz]
  cases Dbg.init cell p.operators (rs.map js.report) Dbg.start <;> rfl

/-- Violation of C85: the command cannot run a program with more than one entry port: the other ports get `undefined`, which the library does not take as a value. -/
theorem C85_inputs_violated {js : JsEnv V} (hu : js.undef = none) {cell : V → V → Str} {junk : Junk V} {time value : Str → Option V} {time' value' : Option Str → Option V}
    (hT : ∀ s, time' (some s) = time s) (hV : ∀ s, value' (some s) = value s) (hv : value' none = none) {p : JsProgram V} {rows : List (List Str)}
    {F F1 : Factory V} {p1 p2 : Str} {more : List Str} (hc : jsCreate js junk p F = .ok () F1) (he : F1.entryPorts p.programId = .ok (p1 :: p2 :: more) F1)
    (hsome : numberRows time value rows ≠ []) : ∃ e F', dbgCommand js cell junk time' value' p rows F = .err e F' := by
  unfold dbgCommand jsRunExtended jsRun
  rw [prepare_numbers hT hV hv, hc]
  dsimp only
  rw [he]
  dsimp only
  cases hrows : numberRows time value rows with
  | nil => exact absurd hrows hsome
  | cons r rest =>
    have hsend : ∀ F, ∃ e F', jsPrepare js p.programId (jsRow r.1 (p1 :: p2 :: more) [r.2]) F = .err e F' := by
      intro F
      simp only [jsRow, jsPrepare]
      cases jsSend js p.programId p1 [(r.1, some r.2)] F with
      | err e F' => exact ⟨e, F', rfl⟩
      | ok _ F' =>
        dsimp only
        unfold jsSend
        cases js.time r.1 with
        | none => exact ⟨_, _, rfl⟩
        | some t =>
          simp only [hu]
          exact ⟨_, _, rfl⟩
    obtain ⟨e, F', hsend⟩ := hsend F1
    simp only [List.map_cons, jsRows, jsProcess, hsend]
    exact ⟨_, _, rfl⟩

/-! ## Concrete cases -/

namespace Debugger

/-- The text of a message: time and value. -/
def cell (t v : Int64) : Str := 40 :: toStr t.toNatClampNeg ++ b!", " ++ toStr v.toNatClampNeg ++ [41]

/-- The program of C74 with its operators as the debugger sees them; "in" is written with one port. -/
def summed : JsProgram Int64 := { jsSum with operators := [⟨b!"in", b!"Input", .obj [(b!"numPorts", .uint 1)]⟩, ⟨b!"sum", b!"CumulativeSum", .obj []⟩,
  ⟨b!"ma", b!"MovingAverage", .obj []⟩] }

/-- A column that is a number of one digit. -/
def digit : Str → Option Int64
  | [c] => if 48 ≤ c ∧ c ≤ 57 then some (Int64.ofNat (c.toNat - 48)) else none
  | _ => none

/-- A missing column is not a number. -/
def digit? : Option Str → Option Int64
  | some s => digit s
  | none => none

/-- Data with a line of titles, a line without a value and a blank line; nine rows are left. -/
def data : List (List Str) := [[b!"t", b!"v"], [b!"1", b!"5"], [b!"2", b!"4", b!"7"], [b!"3"], [[]]] ++
  [[b!"3", b!"1"], [b!"4", b!"2"], [b!"5", b!"6"], [b!"6", b!"0"], [b!"7", b!"1"], [b!"8", b!"1"], [b!"9", b!"3"]]

/-- The state after the command and some actions, and what the last one does: the state and whether it returns. -/
def session (rows : List (List Str)) (l : List DbgAct) (a : DbgAct) : Option (Bool × Nat × List (List Str)) :=
  match dbgCommand jsSumEnv cell (fun _ => (0, 0)) digit? digit? summed rows Factory.empty with
  | .err _ _ => none
  | .ok d _ => match (d.acts cell l).act cell a with
    | .ok _ d => some (true, d.iteration, d.columns)
    | .err _ d => some (false, d.iteration, d.columns)

/-- A concrete case: nine rows are run. Every step forward throws, the position moves and the table stays. Without operators the table has rows of numbers only. -/
example : numberRows digit digit data = [(1, 5), (2, 4), (3, 1), (4, 2), (5, 6), (6, 0), (7, 1), (8, 1), (9, 3)] ∧
    session data [] .forward = some (false, 1, [[b!"iter", b!"in", b!"sum", b!"ma"]]) ∧
    session data [.forward, .forward] .backward = some (false, 1, [[b!"iter", b!"in", b!"sum", b!"ma"]]) ∧
    session data [.forward] .backward = some (true, 0, [[b!"iter", b!"in", b!"sum", b!"ma"]]) ∧
    session data [.select b!"ma" false] (.select b!"in" false) = some (true, 0, [[b!"iter", b!"sum"]]) :=
  ⟨by decide +kernel, by decide +kernel, by decide +kernel, by decide +kernel, by decide +kernel⟩

/-- Reports of a run with twelve rows; a Demultiplexer "d" emits in the last. -/
def twelve : List (JsReport Int64) := (List.range 11).map (fun i => [(b!"in", [(b!"o1", [(Int64.ofNat i, some (Int64.ofNat (i * i)))])])]) ++
  [[(b!"d", [(b!"o2", [(11, some 4)])]), (b!"in", [(b!"o1", [(11, some 4)])])]]

/-- Its operators. -/
def twelveOps : List (JsOp Int64) := [⟨b!"in", b!"Input", .obj []⟩, ⟨b!"d", b!"Demultiplexer", .obj [(b!"numPorts", .uint 2)]⟩]

/-- The debugger after some actions. -/
def shown (ops : List (JsOp Int64)) (rs : List (JsReport Int64)) (l : List DbgAct) (a : DbgAct) : Option (Bool × Nat × List (List Str)) :=
  match Dbg.init cell ops rs Dbg.start with
  | .err _ _ => none
  | .ok _ d => match (d.acts cell l).act cell a with
    | .ok _ d => some (true, d.iteration, d.columns)
    | .err _ d => some (false, d.iteration, d.columns)

/-- A concrete case of C84_table_partial: the first position shows the first eleven reports. -/
example : shown twelveOps twelve [] .forward = some (true, 1, [b!"iter", b!"in", b!"d:o1", b!"d:o2"] ::
      (List.range 11).map fun i => [toStr i, cell (Int64.ofNat i) (Int64.ofNat (i * i)), b!"-", b!"-"]) ∧
    cell 10 100 = b!"(10, 100)" := ⟨by decide +kernel, by decide⟩

/-- A concrete case of C84_ports_violated: the second position has the report with one of the two ports. Without the operator the table is shown. -/
example : (shown twelveOps twelve [.forward] .forward).map (fun x => (x.1, x.2.1)) = some (false, 2) ∧
    (shown twelveOps twelve [.forward, .select b!"d" false] .forward).map (fun x => (x.1, x.2.1, x.2.2.length)) = some (true, 2, 12) := ⟨by decide +kernel, by decide +kernel⟩

/-- Violation of C84: an operator with a colon in its id is shown with what another operator emitted. Here "in:o1" emitted nothing and "in" did. -/
theorem C84_colon_violated : shown [⟨b!"in:o1", b!"MovingAverage", .obj []⟩] twelve [] .forward = some (true, 1, [b!"iter", b!"in:o1"] ::
    (List.range 11).map fun i => [toStr i, cell (Int64.ofNat i) (Int64.ofNat (i * i))]) := by decide +kernel

/-- A concrete case of C84_inherited_violated. -/
example : (shown [⟨b!"valueOf", b!"MovingAverage", .obj []⟩] twelve [] .forward).map (fun x => (x.1, x.2.1)) = some (false, 1) := by decide +kernel

/-- C84_inherited_violated has a case for each name that objects of the language inherit, and none for names next to them. -/
theorem C84_names_violated : (∀ id ∈ [b!"constructor", b!"hasOwnProperty", b!"isPrototypeOf", b!"propertyIsEnumerable", b!"toLocaleString", b!"toString", b!"valueOf", b!"__proto__",
      b!"__defineGetter__", b!"__defineSetter__", b!"__lookupGetter__", b!"__lookupSetter__"],
      (shown [⟨id, b!"MovingAverage", .obj []⟩] twelve [] .forward).map (fun x => (x.1, x.2.1)) = some (false, 1)) ∧
    ∀ id ∈ [b!"length", b!"prototype", b!"proto", b!"tostring", b!"get", b!"keys"], (shown [⟨id, b!"MovingAverage", .obj []⟩] twelve [] .forward).map (fun x => (x.1, x.2.1)) = some (true, 1) := by
  decide +kernel

/-- A program with two entry ports. -/
def twoInputs : Json Int64 := .obj [(b!"connections", .arr []), (b!"entryOperator", .str b!"in"),
  (b!"operators", .arr [.obj [(b!"id", .str b!"in"), (b!"numPorts", .uint 2), (b!"type", .str b!"Input")]]), (b!"output", .obj [(b!"in", .arr [.str b!"o1"])])]

/-- A concrete case of C85_inputs_violated: the program is created and has two ports, and the command fails; it does not when there are no rows. -/
example : (match jsCreate { jsSumEnv with api := ⟨always twoInputs, fun _ => none, 9⟩ } (fun _ => (0, 0)) summed Factory.empty with
      | .ok _ F => (match F.entryPorts summed.programId with
        | .ok ports _ => ports
        | .err _ _ => [])
      | .err _ _ => []) = [b!"i1", b!"i2"] ∧
    (match dbgCommand { jsSumEnv with api := ⟨always twoInputs, fun _ => none, 9⟩ } cell (fun _ => (0, 0)) digit? digit? summed data Factory.empty with
      | .ok _ _ => true
      | .err _ _ => false) = false ∧
    (match dbgCommand { jsSumEnv with api := ⟨always twoInputs, fun _ => none, 9⟩ } cell (fun _ => (0, 0)) digit? digit? summed (data.take 1) Factory.empty with
      | .ok _ _ => true
      | .err _ _ => false) = true := ⟨by decide +kernel, by decide +kernel, by decide +kernel⟩

end Debugger
end Rtbot
