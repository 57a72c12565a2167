import Verif.Lemmas.LocalEnd
import Verif.Lemmas.Create

set_option linter.unusedSectionVars false

/-! # Creation ends -/

namespace Rtbot
variable {V : Type} [Num V]
open Spec

theorem en_sub (j : Json V) (k : Str) : EN (j.sub k) := by unfold Json.sub; en
theorem en_at (j : Json V) (k : Str) : EN (j.at' k) := by unfold Json.at'; en
theorem en_idx (j : Json V) (n : Nat) : EN (j.idx n) := by unfold Json.idx; en
theorem en_getStr (j : Json V) : EN j.getStr := by unfold Json.getStr; en
theorem en_getNum (j : Json V) : EN j.getNum := by unfold Json.getNum; en
theorem en_getU64 (j : Json V) : EN j.getU64 := by
  unfold Json.getU64
  split
  · exact en_ok _
  · exact en_ok _
  · exact en_toTime _
  · exact en_exc _
theorem en_getInt (j : Json V) : EN j.getInt := by unfold Json.getInt Json.truncInt; en
theorem en_value {α : Type} (j : Json V) (k : Str) (d : α) (g : Json V → Except Err α) (hg : ∀ x, EN (g x)) : EN (j.value k d g) := by
  unfold Json.value
  split
  · split
    · exact hg _
    · exact en_ok _
  · exact en_exc _
theorem en_mapM {α β : Type} (f : α → Except Err β) (hf : ∀ x, EN (f x)) (l : List α) : EN (l.mapM f) := by
  induction l with
  | nil => rw [List.mapM_nil]; exact en_ok _
  | cons x l ih => rw [List.mapM_cons]; exact en_bind (hf x) fun _ => en_bind ih fun _ => en_ok _
theorem en_getNums (j : Json V) : EN j.getNums := by
  unfold Json.getNums Json.getArr
  exact en_bind (by en) fun l => en_mapM _ en_getNum l
theorem en_portCount (n : Nat) : EN (portCount n) := by unfold portCount; en
theorem en_readPoints (l : List (Json V)) : EN (readPoints l) := by
  induction l with
  | nil => exact en_ok _
  | cons x l ih =>
    unfold readPoints
    exact en_bind (en_idx _ _) fun _ => en_bind (en_getNum _) fun _ => en_bind (en_idx _ _) fun _ => en_bind (en_getNum _) fun _ => en_bind ih fun _ => en_ok _

theorem en_addData (c : Core V) (p : Str) (n : Nat) : EN (c.addDataInput p n) := by unfold Core.addDataInput; en
theorem en_addCtrl (c : Core V) (p : Str) (n : Nat) : EN (c.addControlInput p n) := by unfold Core.addControlInput; en
theorem en_addPorts (c : Core V) (max n : Nat) : EN (addPorts c max n) := by
  induction n with
  | zero => exact en_ok _
  | succ n ih => unfold addPorts; exact en_bind ih fun _ => en_bind (en_addData _ _ _) fun _ => en_ok _
theorem en_addInputs (c : Core V) (max n : Nat) : EN (addInputs c max n) := by
  induction n with
  | zero => exact en_ok _
  | succ n ih => unfold addInputs; exact en_bind ih fun _ => en_addData _ _ _
theorem en_addControls (c : Core V) (n : Nat) : EN (addControls c n) := by
  induction n with
  | zero => exact en_ok _
  | succ n ih => unfold addControls; exact en_bind ih fun _ => en_bind (en_addCtrl _ _ _) fun _ => en_ok _
theorem en_newInput (id : Str) (n : Nat) : EN (Op.newInput id n : Except Err (Op V)) := en_bind (en_addPorts _ _ _) fun _ => en_ok _
theorem en_newOutput (id : Str) (n : Nat) : EN (Op.newOutput id n : Except Err (Op V)) := en_bind (en_addPorts _ _ _) fun _ => en_ok _
theorem en_newJoin (id : Str) (n : Nat) : EN (Op.newJoin id n : Except Err (Op V)) := by
  unfold Op.newJoin
  split
  · exact en_exc _
  · exact en_bind (en_addPorts _ _ _) fun _ => en_ok _
theorem en_newLinear (id : Str) (l : List V) : EN (Op.newLinear id l) := by
  unfold Op.newLinear
  split
  · exact en_exc _
  · exact en_bind (en_addInputs _ _ _) fun _ => en_ok _
theorem en_newDemux (id : Str) (n : Nat) : EN (Op.newDemux id n : Except Err (Op V)) := by
  unfold Op.newDemux
  split
  · exact en_exc _
  · exact en_bind (en_addControls _ _) fun _ => en_bind (en_addData _ _ _) fun _ => en_ok _
theorem en_newConstRes (id : Str) (dt t : UInt64) (v : V) : EN (Op.newConstRes id dt t v) := by unfold Op.newConstRes; en
theorem en_newFunction (id : Str) (ps : List (V × V)) (t : Option Interp) : EN (Op.newFunction id ps t) := by unfold Op.newFunction; en

theorem en_id {α : Type} (j : Json V) (f : Str → Except Err α) (hf : ∀ id, EN (f id)) : EN (do let x ← j.sub b!"id"; let id ← x.getStr; f id) :=
  en_bind (en_sub _ _) fun _ => en_bind (en_getStr _) hf

theorem otherOpOf_end {t : Str} {j : Json V} {junk : UInt64 × V} {r : Except Err (Op V)} (h : otherOpOf t j junk = some r) : EN r := by
  have ports : ∀ (f : Nat → Except Err (Op V)), (∀ n, EN (f n)) →
      EN (do let n ← j.value b!"numPorts" 1 Json.getInt; let n ← portCount (intSize n); f n) :=
    fun f hf => en_bind (en_value _ _ _ _ en_getInt) fun _ => en_bind (en_portCount _) hf
  unfold otherOpOf at h
  rcases of_ite h with ⟨rfl, h⟩ | ⟨_, h⟩
  · cases h; exact en_id _ _ fun _ => ports _ fun _ => en_newInput _ _
  rcases of_ite h with ⟨rfl, h⟩ | ⟨_, h⟩
  · cases h; exact en_id _ _ fun _ => ports _ fun _ => en_newOutput _ _
  rcases of_ite h with ⟨rfl, h⟩ | ⟨_, h⟩
  · cases h; exact en_id _ _ fun _ => ports _ fun _ => en_newDemux _ _
  rcases of_ite h with ⟨rfl, h⟩ | ⟨_, h⟩
  · cases h; exact en_id _ _ fun _ => en_bind (en_sub _ _) fun _ => en_bind (en_getU64 _) fun _ => en_bind (en_portCount _) fun _ => en_newJoin _ _
  rcases of_ite h with ⟨rfl, h⟩ | ⟨_, h⟩
  · cases h; exact en_id _ _ fun _ => en_bind (en_sub _ _) fun _ => en_bind (en_getU64 _) fun _ => en_ok _
  rcases of_ite h with ⟨rfl, h⟩ | ⟨_, h⟩
  · cases h; exact en_id _ _ fun _ => en_bind (en_sub _ _) fun _ => en_bind (en_getU64 _) fun _ => en_ok _
  rcases of_ite h with ⟨rfl, h⟩ | ⟨_, h⟩
  · cases h; exact en_id _ _ fun _ => en_bind (en_sub _ _) fun _ => en_bind (en_getNums _) fun _ => en_ok _
  rcases of_ite h with ⟨rfl, h⟩ | ⟨_, h⟩
  · cases h; exact en_id _ _ fun _ => en_bind (en_sub _ _) fun _ => en_bind (en_getNums _) fun _ => en_newLinear _ _
  rcases of_ite h with ⟨rfl, h⟩ | ⟨_, h⟩
  · cases h; exact en_id _ _ fun _ => en_bind (en_sub _ _) fun _ => en_bind (en_getNums _) fun _ => en_ok _
  rcases of_ite h with ⟨rfl, h⟩ | ⟨_, h⟩
  · cases h; exact en_id _ _ fun _ => en_bind (en_value _ _ _ _ en_getInt) fun _ => en_ok _
  rcases of_ite h with ⟨rfl, h⟩ | ⟨_, h⟩
  · cases h; exact en_id _ _ fun _ => en_bind (en_value _ _ _ _ en_getInt) fun _ => en_bind (en_value _ _ _ _ en_getInt) fun _ => en_ok _
  rcases of_ite h with ⟨rfl, h⟩ | ⟨_, h⟩
  · cases h; exact en_id _ _ fun _ => en_bind (en_sub _ _) fun _ => en_bind (en_getU64 _) fun _ => en_newConstRes _ _ _ _
  rcases of_ite h with ⟨rfl, h⟩ | ⟨_, h⟩
  · cases h
    exact en_bind (en_sub _ _) fun _ => en_bind (en_readPoints _) fun _ => en_id _ _ fun _ => en_bind (en_value _ _ _ _ en_getStr) fun _ => en_newFunction _ _ _
  cases h

theorem simpleOpOf_end {t : Str} {j : Json V} {junk : UInt64 × V} {r : Except Err (Op V)} (h : simpleOpOf t j junk = some r) : EN r := by
  unfold simpleOpOf at h
  split at h
  · cases h; exact en_id _ _ fun _ => en_ok _
  split at h
  · cases h; exact en_id _ _ fun _ => en_bind (en_sub _ _) fun _ => en_bind (en_getNum _) fun _ => en_ok _
  split at h
  · cases h; exact en_id _ _ fun _ => en_bind (en_sub _ _) fun _ => en_bind (en_getU64 _) fun _ => en_ok _
  split at h
  · cases h; exact en_id _ _ fun _ => en_ok _
  · exact otherOpOf_end h

/-! ## Programs and pipelines -/

theorem en_bind_of {α β : Type} {x : Except Err α} {f : α → Except Err β} (h : EN x) (hf : ∀ a, x = .ok a → EN (f a)) : EN (x >>= f) := by
  cases x with
  | ok a => exact hf a rfl
  | error e => intro h'; exact h (by cases h'; rfl)

theorem buildOps_end {read : Json V → Mem V → Except Err (Op V × Mem V)} (xs : List (Json V)) (hr : ∀ x ∈ xs, ∀ m, EN (read x m)) :
    ∀ ops m, EN (buildOps read xs ops m) := by
  induction xs with
  | nil => intro ops m; exact en_ok _
  | cons x xs ih =>
    intro ops m
    have ih := ih fun y hy => hr y (List.mem_cons_of_mem _ hy)
    unfold buildOps
    refine en_bind (en_sub _ _) fun _ => en_bind (hr x (by simp) m) fun _ => en_bind (en_getStr _) fun _ => ?_
    split
    · exact ih _ _
    · exact ih _ _

theorem en_mapAt {β : Type} (m : Map β) (k : Str) : EN (mapAt m k) := by unfold mapAt; en
theorem en_mop (m : Mem V) (a : Nat) : EN (m.op a) := by unfold Mem.op; en
theorem en_readConn (j : Json V) : EN (readConn j) :=
  en_bind (en_sub _ _) fun _ => en_bind (en_getStr _) fun _ => en_bind (en_sub _ _) fun _ => en_bind (en_getStr _) fun _ =>
    en_bind (en_value _ _ _ _ en_getStr) fun _ => en_bind (en_value _ _ _ _ en_getStr) fun _ => en_ok _

theorem en_connect (c child : Core V) (t : Nat) (p q : Str) : EN (c.connect child t p q) := by
  unfold Core.connect
  extract_lets out inp op ip conn
  split_ifs
  · exact en_exc _
  · exact en_exc _
  · split <;> exact en_ok _
  · exact en_ok _

theorem connectOp_end (a b : Nat) (p q : Str) (s : St V) : ∀ t, connectOp a b p q s ≠ .err .diverge t := by
  have hl : ∀ (x : Nat) (c : Core V) (t : St V), localRun x (Op.connect c b p q) s ≠ .err .diverge t := by
    intro x c t
    unfold localRun
    cases s.heap x with
    | none => exact fun h => by cases h
    | some o =>
      unfold Op.connect
      have := en_connect o.core c b p q
      dsimp only
      cases hc : o.core.connect c b p q with
      | error e =>
        intro h
        have h : Res.err e _ = Res.err Err.diverge t := h
        cases h
        exact this hc
      | ok r => cases r <;> exact fun h => by cases h
  intro t
  unfold connectOp
  simp only [bind, M.bind, getOp]
  cases s.heap a with
  | none => exact fun h => by cases h
  | some o =>
    dsimp only
    cases s.heap b with
    | none => exact fun h => by cases h
    | some c =>
      dsimp only
      cases o.kind with
      | composite i q =>
        cases q with
        | none => exact fun h => by cases h
        | some q => exact hl _ _ _
      | _ => exact hl _ _ _

theorem makeConn_end (ops : Map Nat) (x : ConnDesc) (m : Mem V) : EN (makeConn ops x m) := by
  unfold makeConn
  refine en_bind (en_mapAt _ _) fun a => en_bind (en_mapAt _ _) fun b => ?_
  have := connectOp_end a b x.fromPort x.toPort m.st
  split
  · next e t h =>
    intro he
    cases he
    exact this _ h
  · exact en_ok _
  · exact en_exc _

theorem makeConns_end (ops : Map Nat) (js : List (Json V)) : ∀ m, EN (makeConns ops js m) := by
  induction js with
  | nil => intro m; exact en_ok _
  | cons j js ih => intro m; unfold makeConns; exact en_bind (en_readConn _) fun _ => en_bind (makeConn_end _ _ _) fun _ => ih _

theorem pipeConns_end (ops : Map Nat) (js : List (Json V)) : ∀ m ui uo, EN (pipeConns ops js m ui uo) := by
  induction js with
  | nil => intro m ui uo; exact en_ok _
  | cons j js ih =>
    intro m ui uo
    unfold pipeConns
    exact en_bind (en_readConn _) fun _ => en_bind (makeConn_end _ _ _) fun _ => en_bind (en_mapAt _ _) fun _ => en_bind (en_mop _ _) fun _ =>
      en_bind (en_mapAt _ _) fun _ => en_bind (en_mop _ _) fun _ => ih _ _ _

theorem exposeOps_end (m : Mem V) (ui uo : List Str) (ops : Map Nat) : ∀ ins outs, EN (exposeOps m ui uo ops ins outs) := by
  induction ops with
  | nil => intro ins outs; exact en_ok _
  | cons e ops ih => intro ins outs; unfold exposeOps; exact en_bind (en_mop _ _) fun _ => ih _ _

theorem nameInputs_end (ks : List Str) : ∀ n (c : Core V) pm, EN (nameInputs ks n c pm) := by
  induction ks with
  | nil => intro n c pm; exact en_ok _
  | cons k ks ih => intro n c pm; unfold nameInputs; exact en_bind (en_addData _ _ _) fun _ => ih _ _ _

theorem newPipeline_end {read : Json V → Mem V → Except Err (Op V × Mem V)} (id : Str) (prog : Json V) (m : Mem V)
    (hr : ∀ os, Member prog b!"operators" os → ∀ x ∈ os.items, ∀ m, EN (read x m)) : EN (newPipeline read id prog m) := by
  unfold newPipeline
  refine en_bind_of (en_at _ _) fun os h => en_bind (buildOps_end _ (hr os (at_ok h)) _ _) fun _ => ?_
  refine en_bind (en_at _ _) fun _ => en_bind (pipeConns_end _ _ _ _ _) fun _ => ?_
  refine en_bind (exposeOps_end _ _ _ _ _ _) fun _ => ?_
  refine en_bind (nameInputs_end _ _ _ _) fun _ => ?_
  exact en_ok _

/-! ## Depth -/

theorem depth_member {j x : Json V} {k : Str} (h : Member j k x) : x.depth < j.depth := by
  obtain ⟨m, rfl, h⟩ := h
  have : ∀ m : List (Str × Json V), Map.find? m k = some x → x.depth ≤ Json.depthMap m := by
    intro m
    induction m with
    | nil => intro h; cases h
    | cons e m ih =>
      intro h
      rw [Map.find?_cons] at h
      show _ ≤ max _ _
      split at h
      · cases h; exact le_max_left _ _
      · exact (ih h).trans (le_max_right _ _)
  show _ < Json.depthMap m + 1
  exact Nat.lt_succ_of_le (this m h)

theorem depth_items {os x : Json V} (h : x ∈ os.items) : x.depth ≤ os.depth := by
  have hl : ∀ l : List (Json V), x ∈ l → x.depth ≤ Json.depthList l := by
    intro l
    induction l with
    | nil => intro h; cases h
    | cons y l ih =>
      intro h
      show _ ≤ max _ _
      rcases List.mem_cons.1 h with rfl | h
      · exact le_max_left _ _
      · exact (ih h).trans (le_max_right _ _)
  have hm : ∀ m : List (Str × Json V), x ∈ m.map (·.2) → x.depth ≤ Json.depthMap m := by
    intro m
    induction m with
    | nil => intro h; cases h
    | cons y m ih =>
      intro h
      show _ ≤ max _ _
      rcases List.mem_cons.1 h with h | h
      · rw [h]; exact le_max_left _ _
      · exact (ih h).trans (le_max_right _ _)
  unfold Json.items at h
  split at h
  · cases h
  · exact (hl _ h).trans (Nat.le_succ _)
  · exact (hm _ h).trans (Nat.le_succ _)
  · rw [List.mem_singleton.1 h]

theorem readOp_end {junk : Junk V} : ∀ (fuel : Nat) (j : Json V) (m : Mem V), j.depth < fuel → EN (readOp junk fuel j m) := by
  intro fuel
  induction fuel with
  | zero => intro j m h; omega
  | succ fuel ih =>
    intro j m h
    unfold readOp
    refine en_bind (en_at _ _) fun _ => en_bind (en_getStr _) fun t => ?_
    split
    · refine en_bind (en_at _ _) fun _ => en_bind (en_getStr _) fun _ => ?_
      refine en_bind_of (en_at _ _) fun prog hp => ?_
      refine newPipeline_end _ _ _ fun os hos x hx m => ih x m ?_
      have h1 := depth_member (at_ok hp)
      have h2 := depth_member hos
      have h3 := depth_items hx
      omega
    · split
      · exact en_exc _
      · next r hr => exact en_bind (simpleOpOf_end hr) fun _ => en_ok _

theorem initWith_end (junk : Junk V) (json : Str) (j : Json V) : EN (Prog.initWith junk json j) := by
  unfold Prog.initWith
  refine en_bind (en_value _ _ _ _ en_getStr) fun _ => ?_
  split
  · exact en_exc _
  · refine en_bind_of (en_at _ _) fun os h => ?_
    refine en_bind (buildOps_end _ (fun x hx m => readOp_end _ _ _ ?_) _ _) fun _ => ?_
    · have h1 := depth_member (at_ok h)
      have h2 := depth_items hx
      omega
    refine en_bind (en_at _ _) fun _ => en_bind (makeConns_end _ _ _) fun _ => ?_
    split
    · exact en_exc _
    · refine en_bind (en_mop _ _) fun _ => ?_
      split <;> exact en_ok _

end Rtbot
