import Verif.Spec.Debugger
import Verif.Lemmas.Wiring

/-! # Lemmas about the debugger -/

namespace Rtbot.Debugger
open Rtbot Spec
variable {V : Type} [Num V]

theorem mapM_all {α β : Type} {f : α → Except Err β} {g : α → β} : ∀ {l : List α}, (∀ x ∈ l, f x = .ok (g x)) → l.mapM f = .ok (l.map g)
  | [], _ => rfl
  | x :: l, h => by
    rw [List.mapM_cons, h x (by simp), mapM_all fun y hy => h y (by simp [hy])]
    rfl

theorem mapM_throws {α β : Type} {f : α → Except Err β} {e : Err} (hf : ∀ x e', f x = .error e' → e' = e) :
    ∀ {l : List α} {x : α}, x ∈ l → (∃ e', f x = .error e') → l.mapM f = .error e
  | y :: l, x, hx, hx' => by
    rw [List.mapM_cons]
    cases hy : f y with
    | error e' => rw [hf y e' hy]; rfl
    | ok b =>
      have : x ∈ l := by
        rcases List.mem_cons.1 hx with rfl | h
        · obtain ⟨e', he⟩ := hx'
          rw [hy] at he
          cases he
        · exact h
      show (do let bs ← l.mapM f; pure (b :: bs)) = _
      rw [mapM_throws hf this hx']
      rfl

theorem mapM_error_is {α β : Type} {f : α → Except Err β} {e : Err} (hf : ∀ x e', f x = .error e' → e' = e) :
    ∀ {l : List α} {e' : Err}, l.mapM f = .error e' → e' = e
  | [], e', h => by cases h
  | y :: l, e', h => by
    rw [List.mapM_cons] at h
    cases hy : f y with
    | error e1 =>
      rw [hy] at h
      cases h
      exact hf _ _ hy
    | ok b =>
      rw [hy] at h
      cases hl : l.mapM f with
      | error e2 =>
        have : (Except.error e2 : Except Err (List β)) = .error e' := by
          have h' : (do let bs ← l.mapM f; pure (b :: bs)) = (.error e' : Except Err (List β)) := h
          rw [hl] at h'
          exact (show (Except.error e2 : Except Err (List β)) = _ from h')
        cases this
        exact mapM_error_is hf hl
      | ok bs =>
        have h' : (do let bs ← l.mapM f; pure (b :: bs)) = (.error e' : Except Err (List β)) := h
        rw [hl] at h'
        cases h'

theorem mapM_inv {α β : Type} {f : α → Except Err β} : ∀ {l : List α} {ys : List β}, l.mapM f = .ok ys → List.Forall₂ (fun x y => f x = .ok y) l ys
  | [], ys, h => by cases h; exact .nil
  | x :: l, ys, h => by
    rw [List.mapM_cons] at h
    cases hx : f x with
    | error e => rw [hx] at h; cases h
    | ok b =>
      have h' : (do let bs ← l.mapM f; pure (b :: bs)) = (.ok ys : Except Err (List β)) := by rw [hx] at h; exact h
      cases hl : l.mapM f with
      | error e => rw [hl] at h'; cases h'
      | ok bs =>
        rw [hl] at h'
        cases h'
        exact .cons hx (mapM_inv hl)

/-! ## Names -/

theorem takeWhile_clean : ∀ {s : Str}, (58 : UInt8) ∉ s → ∀ t : Str, (s ++ 58 :: t).takeWhile (· ≠ 58) = s ∧ (s ++ 58 :: t).dropWhile (· ≠ 58) = 58 :: t
  | [], _, t => by simp
  | a :: s, h, t => by
    have ha : a ≠ 58 := fun e => h (by simp [e])
    have := takeWhile_clean (s := s) (fun e => h (by simp [e])) t
    simp [ha] at this ⊢
    exact this

theorem takeWhile_whole : ∀ {s : Str}, (58 : UInt8) ∉ s → s.takeWhile (· ≠ 58) = s ∧ s.dropWhile (· ≠ 58) = []
  | [], _ => by simp
  | a :: s, h => by
    have ha : a ≠ 58 := fun e => h (by simp [e])
    have := takeWhile_whole (s := s) (fun e => h (by simp [e]))
    simp [ha] at this ⊢
    exact this

theorem split_join {id p : Str} (hi : (58 : UInt8) ∉ id) (hp : (58 : UInt8) ∉ p) : dbgSplit (joinName id p) = (id, some p) := by
  unfold dbgSplit joinName
  rw [List.append_assoc, List.singleton_append, (takeWhile_clean hi p).1, (takeWhile_clean hi p).2]
  simp only [(takeWhile_whole hp).1]

theorem split_id {id : Str} (hi : (58 : UInt8) ∉ id) : dbgSplit id = (id, none) := by
  unfold dbgSplit
  rw [(takeWhile_whole hi).1, (takeWhile_whole hi).2]

/-- Ports as `computeOperators` makes them. -/
def PortList (ps : List Str) : Prop := ∃ n, ps = (List.range (n + 1)).map fun i => oPort (i + 1)

theorem dbgPorts_list {j : Json V} {ps : List Str} (h : dbgPorts j = .ok ps) : PortList ps := by
  have one : PortList [b!"o1"] := ⟨0, by decide⟩
  unfold dbgPorts at h
  split at h
  · split at h
    · split at h
      · cases h; exact one
      · split at h
        · rename_i n _ hn _
          cases h
          refine ⟨n.toNat - 1, ?_⟩
          have : n.toNat ≠ 0 := fun e => hn (UInt64.toNat_inj.1 e)
          rw [Nat.sub_add_cancel (by omega)]
        · cases h
    · split at h
      · cases h; exact one
      · cases h
    · cases h
    · cases h; exact one
  · cases h; exact one

theorem PortList.clean {ps : List Str} (h : PortList ps) : ∀ p ∈ ps, (58 : UInt8) ∉ p := by
  obtain ⟨n, rfl⟩ := h
  intro p hp
  obtain ⟨i, _, rfl⟩ := List.mem_map.1 hp
  exact oPort_clean _

theorem PortList.single {ps : List Str} (h : PortList ps) (hl : ¬ 1 < ps.length) : ps = [b!"o1"] := by
  obtain ⟨n, rfl⟩ := h
  simp at hl
  subst hl
  decide

theorem PortList.ne {ps : List Str} (h : PortList ps) : ps ≠ [] := by
  obtain ⟨n, rfl⟩ := h
  simp

/-! ## Cells -/

theorem joinComma_eq : ∀ l : List Str, joinComma l = List.intercalate b!", " l
  | [] => rfl
  | [a] => by simp [joinComma, List.intercalate]
  | a :: b :: l => by
    rw [joinComma, joinComma_eq (b :: l)]
    simp [List.intercalate, List.intersperse]

/-- The code in terms of the place a header stands for. -/
def cellAt (cell : V → V → Str) (r : Option (JsReport V)) (id p : Str) : Except Err Str :=
  if id = [] then .ok b!"-"
  else match r with
    | none => throwExc .runtime
    | some out => match out.find? id with
      | none => if inherited.contains id then throwExc .runtime else .ok b!"-"
      | some ports => match ports.find? p with
        | none => throwExc .runtime
        | some ms => .ok (joinComma (ms.map (dbgMsg cell)))

theorem dbgCell_join {cell : V → V → Str} {r : Option (JsReport V)} {id p : Str} (hi : (58 : UInt8) ∉ id) (hp : (58 : UInt8) ∉ p) :
    dbgCell cell r (joinName id p) = cellAt cell r id p := by
  unfold dbgCell
  rw [split_join hi hp]
  rfl

theorem dbgCell_id {cell : V → V → Str} {r : Option (JsReport V)} {id : Str} (hi : (58 : UInt8) ∉ id) :
    dbgCell cell r id = cellAt cell r id b!"o1" := by
  unfold dbgCell
  rw [split_id hi]
  rfl

theorem dbgCell_error {cell : V → V → Str} {r : Option (JsReport V)} {h : Str} {e : Err} (he : dbgCell cell r h = .error e) : e = .exc .runtime := by
  unfold dbgCell at he
  dsimp only at he
  split at he
  · cases he
  · split at he
    · cases he; rfl
    · split at he
      · split at he
        · cases he; rfl
        · cases he
      · split at he
        · cases he; rfl
        · cases he

theorem dbgRow_error {cell : V → V → Str} {rs : Option (List (JsReport V))} {hs : List Str} {i : Nat} {e : Err} (he : dbgRow cell rs hs i = .error e) :
    e = .exc .runtime := by
  unfold dbgRow at he
  split at he
  · cases he; rfl
  · rename_i l
    cases hm : hs.mapM (dbgCell cell l[i]?) with
    | error e' =>
      rw [hm] at he
      cases he
      exact mapM_error_is (fun x e' h => dbgCell_error h) hm
    | ok row => rw [hm] at he; cases he

/-- The text the code makes of a message. -/
theorem cellAt_shown {cell : V → V → Str} {r : JsReport V} {id p : Str} (hi : GoodId id)
    (hp : ∀ ports, r.find? id = some ports → ∃ ms, ports.find? p = some ms ∧ ms ≠ []) :
    cellAt cell (some r) id p = .ok (shownText (dbgMsg cell) (reportedAt r id p)) := by
  unfold cellAt reportedAt
  rw [if_neg hi.some]
  dsimp only
  cases hf : r.find? id with
  | none =>
    have : inherited.contains id = false := by
      rw [← Bool.not_eq_true, List.contains_iff_mem]
      exact hi.own
    simp only [this]
    rfl
  | some ports =>
    obtain ⟨ms, hm, hne⟩ := hp ports hf
    simp only [hm, joinComma_eq]
    cases ms with
    | nil => exact absurd rfl hne
    | cons m ms => rfl

/-! ## Headers and rows -/

omit [Num V] in
theorem headers_titles : ∀ {ops : List DbgOp}, (∀ op ∈ ops, PortList op.ports) → ops.flatMap dbgHeaders = ops.flatMap fun op => match op.ports with
    | [_] => [op.id]
    | ps => ps.map fun p => op.id ++ 58 :: p
  | [], _ => rfl
  | op :: ops, h => by
    rw [List.flatMap_cons, List.flatMap_cons, headers_titles fun o ho => h o (by simp [ho])]
    congr 1
    unfold dbgHeaders
    have hp := h op (by simp)
    split
    · rename_i hl
      split
      · rename_i e; rw [e] at hl; simp at hl
      · simp [joinName]
    · rename_i hl
      rw [hp.single hl]

theorem row_places {cell : V → V → Str} {r : Option (JsReport V)} : ∀ {ops : List DbgOp}, (∀ op ∈ ops, PortList op.ports) → (∀ op ∈ ops, (58 : UInt8) ∉ op.id) →
    (ops.flatMap dbgHeaders).mapM (dbgCell cell r) = (ops.flatMap fun op => op.ports.map fun p => (op.id, p)).mapM fun c => cellAt cell r c.1 c.2
  | [], _, _ => rfl
  | op :: ops, h, hi => by
    rw [List.flatMap_cons, List.flatMap_cons, List.mapM_append, List.mapM_append, row_places (fun o ho => h o (by simp [ho])) fun o ho => hi o (by simp [ho])]
    have hp := h op (by simp)
    have hid := hi op (by simp)
    have : (dbgHeaders op).mapM (dbgCell cell r) = (op.ports.map fun p => (op.id, p)).mapM fun c => cellAt cell r c.1 c.2 := by
      unfold dbgHeaders
      split
      · rw [List.mapM_map, List.mapM_map]
        have hc := hp.clean
        clear h hi hp
        generalize op.ports = ps at hc
        induction ps with
        | nil => rfl
        | cons p ps ih =>
          rw [List.mapM_cons, List.mapM_cons, ih fun q hq => hc q (by simp [hq])]
          simp only [Function.comp]
          rw [dbgCell_join hid (hc p (by simp))]
      · rename_i hl
        rw [hp.single hl]
        simp only [List.map_cons, List.map_nil, List.mapM_cons, List.mapM_nil]
        rw [dbgCell_id hid]
    rw [this]

/-! ## States -/

/-- The parts of the state that the table is made of. -/
structure Inv (rs : List (JsReport V)) (d : Dbg V) : Prop where
  result : d.result = some rs
  max : d.maxIteration = rs.length
  iter : d.iteration ≤ rs.length
  ports : ∀ op ∈ d.operators, PortList op.ports

theorem columns_state (cell : V → V → Str) (d : Dbg V) : ∃ c, (d.computeColumns cell).state = { d with columns := c } := by
  unfold Dbg.computeColumns
  dsimp only
  split
  · exact ⟨_, rfl⟩
  · split
    · exact ⟨d.columns, rfl⟩
    · exact ⟨_, rfl⟩

theorem setSelected_ports {P : DbgOp → Prop} {id : Str} {b : Bool} (hP : ∀ op : DbgOp, P op → P { op with selected := b }) : ∀ {ops : List DbgOp}, (∀ op ∈ ops, P op) →
    ∀ op ∈ setSelected id b ops, P op
  | [], _, op, h => by cases h
  | x :: ops, hx, op, h => by
    rw [setSelected] at h
    split at h
    · rcases List.mem_cons.1 h with rfl | h
      · exact hP x (hx x (by simp))
      · exact hx op (by simp [h])
    · rcases List.mem_cons.1 h with rfl | h
      · exact hx _ (by simp)
      · exact setSelected_ports hP (fun o ho => hx o (by simp [ho])) op h

theorem act_inv {cell : V → V → Str} {rs : List (JsReport V)} {d : Dbg V} (h : Inv rs d) (a : DbgAct) : Inv rs (d.act cell a).state := by
  cases a with
  | forward =>
    obtain ⟨c, hc⟩ := columns_state cell { d with iteration := min (d.iteration + 1) d.maxIteration }
    unfold Dbg.act
    dsimp only
    rw [hc]
    exact ⟨h.result, h.max, by have := h.max; simp only; omega, h.ports⟩
  | backward =>
    obtain ⟨c, hc⟩ := columns_state cell { d with iteration := d.iteration - 1 }
    unfold Dbg.act
    dsimp only
    rw [hc]
    exact ⟨h.result, h.max, by have := h.iter; simp only; omega, h.ports⟩
  | select id b =>
    obtain ⟨c, hc⟩ := columns_state cell (d.updateOperator id b)
    unfold Dbg.act
    dsimp only
    rw [hc]
    exact ⟨h.result, h.max, h.iter, setSelected_ports (P := fun op => PortList op.ports) (fun _ h => h) h.ports⟩

theorem acts_inv {cell : V → V → Str} {rs : List (JsReport V)} : ∀ (l : List DbgAct) {d : Dbg V}, Inv rs d → Inv rs (d.acts cell l)
  | [], _, h => h
  | a :: l, _, h => acts_inv l (act_inv h a)

/-! ## The table -/

theorem columns_table {cell : V → V → Str} {rs : List (JsReport V)} {d : Dbg V} (h : Inv rs d) (hid : ∀ op ∈ d.operators, op.selected = true → GoodId op.id)
    (hend : d.iteration = 0 ∨ d.iteration + 10 ≤ rs.length) (hall : ∀ r ∈ (rs.drop (d.iteration - 1)).take 11, AllPorts d.operators r) :
    d.computeColumns cell = .ok () { d with columns := tableAt (dbgMsg cell) rs d.operators d.iteration } := by
  have hsel : ∀ op ∈ d.operators.filter (·.selected), op ∈ d.operators ∧ op.selected = true := fun op ho => by
    simpa using ho
  have htit : (d.operators.filter (·.selected)).flatMap dbgHeaders = titles d.operators := headers_titles fun op ho => h.ports op (hsel op ho).1
  unfold Dbg.computeColumns
  dsimp only
  split
  · rename_i h0
    rw [h0, htit]
    rfl
  · rename_i h0
    have hk : ∃ k, d.iteration = k + 1 := ⟨d.iteration - 1, by omega⟩
    obtain ⟨k, hk⟩ := hk
    have hle : k + 11 ≤ rs.length := by omega
    have hcount : min d.iteration d.maxIteration + 10 - (d.iteration - 1) = 11 := by have := h.iter; have := h.max; omega
    rw [hcount]
    have hfirst : d.iteration - 1 = k := by omega
    rw [hfirst] at hall ⊢
    have hrow : ∀ i ∈ List.range' k 11, dbgRow cell d.result ((d.operators.filter (·.selected)).flatMap dbgHeaders) i = .ok
        (toStr i :: (places d.operators).map fun c => match rs[i]? with
          | some r => shownText (dbgMsg cell) (reportedAt r c.1 c.2)
          | none => []) := by
      intro i hi
      have hi' : k ≤ i ∧ i < k + 11 := by simpa using hi
      have hlt : i < rs.length := by omega
      unfold dbgRow
      rw [h.result]
      dsimp only
      rw [List.getElem?_eq_getElem hlt, row_places (fun op ho => h.ports op (hsel op ho).1) fun op ho => (hid op (hsel op ho).1 (hsel op ho).2).clean]
      have hmem : rs[i] ∈ (rs.drop k).take 11 := by
        rw [List.mem_iff_getElem?]
        refine ⟨i - k, ?_⟩
        rw [List.getElem?_take, if_pos (by omega), List.getElem?_drop, show k + (i - k) = i by omega, List.getElem?_eq_getElem hlt]
      rw [mapM_all (g := fun c => shownText (dbgMsg cell) (reportedAt rs[i] c.1 c.2))]
      · rfl
      · intro c hc
        obtain ⟨op, ho, hc⟩ := List.mem_flatMap.1 hc
        obtain ⟨p, hp, rfl⟩ := List.mem_map.1 hc
        obtain ⟨ho, hs⟩ := hsel op ho
        exact cellAt_shown (hid op ho hs) fun ports hf => hall _ hmem op ho hs ports hf p hp
    rw [mapM_all hrow, htit]
    dsimp only
    congr 2
    rw [hk]
    unfold tableAt
    congr 1
    apply List.ext_getElem?
    intro j
    simp only [List.getElem?_map, List.getElem?_zipIdx, List.getElem?_take, List.getElem?_drop, List.getElem?_range']
    by_cases hj : j < 11
    · have hlt : k + j < rs.length := by omega
      simp [hj, List.getElem?_eq_getElem hlt]
    · simp [hj]

/-- A cell for which the code throws. -/
theorem columns_throws {cell : V → V → Str} {rs : List (JsReport V)} {d : Dbg V} (h : Inv rs d) (h0 : d.iteration ≠ 0) {op : DbgOp} (ho : op ∈ d.operators)
    (hs : op.selected = true) {hd : Str} (hh : hd ∈ dbgHeaders op) {i : Nat} (hi : d.iteration ≤ i + 1 ∧ i < d.iteration + 10)
    (hc : ∃ e, dbgCell cell rs[i]? hd = .error e) : d.computeColumns cell = .err (.exc .runtime) d := by
  unfold Dbg.computeColumns
  dsimp only
  rw [if_neg h0, mapM_throws (e := .exc .runtime) (fun x e' h => dbgRow_error h) (x := i)]
  · have := h.max; have := h.iter; simp only [List.mem_range'_1]; omega
  · unfold dbgRow
    rw [h.result]
    dsimp only
    rw [mapM_throws (f := dbgCell cell rs[i]?) (l := (d.operators.filter (·.selected)).flatMap dbgHeaders) (e := .exc .runtime) (fun x e' h => dbgCell_error h) (x := hd) (List.mem_flatMap.2 ⟨op, by simp [ho, hs], hh⟩) hc]
    exact ⟨_, rfl⟩

theorem init_inv {cell : V → V → Str} {ops : List (JsOp V)} {rs : List (JsReport V)} {d : Dbg V} (h : Dbg.init cell ops rs Dbg.start = .ok () d) :
    Inv rs d ∧ d.iteration = 0 ∧ d.operators.map (·.id) = ops.map (·.id) ∧ d.operators.map (·.type) = ops.map (·.type) ∧ (∀ op ∈ d.operators, op.selected = true) ∧
      List.Forall₂ (fun x y => dbgPorts x.plain = .ok y.ports) ops d.operators ∧ d.columns = [b!"iter" :: titles d.operators] := by
  unfold Dbg.init Dbg.computeOperators at h
  dsimp only at h
  cases hm : ops.mapM dbgOp with
  | error e => rw [hm] at h; cases h
  | ok l =>
    rw [hm] at h
    have hl := mapM_inv hm
    have hop : ∀ (x : JsOp V) (y : DbgOp), dbgOp x = .ok y → y.id = x.id ∧ y.type = x.type ∧ y.selected = true ∧ dbgPorts x.plain = .ok y.ports := by
      intro x y hxy
      unfold dbgOp at hxy
      cases hp : dbgPorts x.plain with
      | error e => rw [hp] at hxy; cases hxy
      | ok ps =>
        rw [hp] at hxy
        cases hxy
        exact ⟨rfl, rfl, rfl, rfl⟩
    have hcol : d = ⟨0, rs.length, some ops, some rs, l, [b!"iter" :: (l.filter (·.selected)).flatMap dbgHeaders]⟩ := by
      cases h; rfl
    have hports : ∀ op ∈ l, PortList op.ports := by
      clear h hcol hm
      intro op ho
      induction hl with
      | nil => cases ho
      | cons hxy _ ih =>
        rcases List.mem_cons.1 ho with rfl | ho
        · exact dbgPorts_list (hop _ _ hxy).2.2.2
        · exact ih ho
    subst hcol
    refine ⟨⟨rfl, rfl, Nat.zero_le _, hports⟩, rfl, ?_, ?_, ?_, ?_, ?_⟩
    · clear h hm hports
      dsimp only
      induction hl with
      | nil => rfl
      | cons hxy _ ih => rw [List.map_cons, List.map_cons, ih, (hop _ _ hxy).1]
    · clear h hm hports
      dsimp only
      induction hl with
      | nil => rfl
      | cons hxy _ ih => rw [List.map_cons, List.map_cons, ih, (hop _ _ hxy).2.1]
    · clear h hm hports
      dsimp only
      intro op ho
      induction hl with
      | nil => cases ho
      | cons hxy _ ih =>
        rcases List.mem_cons.1 ho with rfl | ho
        · exact (hop _ _ hxy).2.2.1
        · exact ih ho
    · exact hl.imp fun x y hxy => (hop x y hxy).2.2.2
    · dsimp only
      rw [headers_titles fun op ho => hports op (List.mem_of_mem_filter ho)]
      rfl

end Rtbot.Debugger
