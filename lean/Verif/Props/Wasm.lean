import Verif.Spec.Wasm
import Verif.Props.Gate
import Verif.Props.Factory

/-! # C92: times that come from a page -/

namespace Rtbot
open Spec
variable {V : Type} [Num V]

namespace Wasm

theorem wide (n : Nat) : (toUint32 n).toUInt64 = UInt64.ofNat (n % 2 ^ 32) := by
  apply UInt64.toNat_inj.1
  unfold toUint32
  rw [UInt32.toNat_toUInt64, UInt32.toNat_ofNat', UInt64.toNat_ofNat']
  omega

theorem widen_eq (ns : List Nat) : widen (ns.map toUint32) = (ns.map (· % 2 ^ 32)).map UInt64.ofNat := by
  unfold widen
  rw [List.map_map, List.map_map]
  exact List.map_congr_left fun n _ => wide n

theorem serve_eq (env : Env V) (F : Factory V) (r : WasmReq V) : F.serveWasm env r = F.serve env (meant (withTimes (· % 2 ^ 32) r)) := by
  cases r with
  | add id port time value =>
    unfold Factory.serveWasm Factory.add32
    dsimp only
    rw [wide]
    rfl
  | batch debug id times values ports =>
    unfold Factory.serveWasm Factory.batch32
    dsimp only
    rw [widen_eq]
    rfl
  | _ => rfl

omit [Num V] in
theorem same (r : WasmReq V) (h : ∀ t ∈ timesOf r, t < 2 ^ 32) : withTimes (· % 2 ^ 32) r = r := by
  cases r with
  | add id port time value =>
    have := h time List.mem_cons_self
    exact congrArg (fun t => WasmReq.add id port t value) (Nat.mod_eq_of_lt this)
  | batch debug id times values ports =>
    exact congrArg (fun ts => WasmReq.batch debug id ts values ports) ((List.map_congr_left fun t ht => Nat.mod_eq_of_lt (h t ht)).trans (List.map_id _))
  | _ => rfl

omit [Num V] in
/-- Nothing is newer than the largest time. -/
theorem records_none {t : UInt64} (ms : List (Msg V)) (h : ∀ m ∈ ms, m.time ≤ t) : records (some t) ms = [] := by
  induction ms with
  | nil => rfl
  | cons m ms ih =>
    unfold records
    have h1 : newer (some t) m.time = false := by
      unfold newer
      rw [decide_eq_false_iff_not, UInt64.not_lt]
      exact h m List.mem_cons_self
    rw [h1]
    exact ih fun x hx => h x (List.mem_cons_of_mem _ hx)

omit [Num V] in
/-- What has been forwarded is newer than the messages that follow. -/
theorem records_append {t : UInt64} (ms ys : List (Msg V)) : ∀ (last : Option UInt64) (hl : ∀ l, last = some l → l ≤ t) (hms : ∀ m ∈ ms, m.time ≤ t) (v : V)
    (hy : ∀ m ∈ ys, m.time ≤ t), records last (ms ++ ⟨t, v⟩ :: ys) = records last (ms ++ [⟨t, v⟩]) := by
  induction ms with
  | nil =>
    intro last hl _ v hy
    rw [List.nil_append, List.nil_append]
    unfold records
    cases hn : newer last t with
    | true =>
      rw [if_pos rfl, if_pos rfl, records_none ys hy]
      rfl
    | false =>
      rw [if_neg (by decide), if_neg (by decide)]
      cases last with
      | none => cases hn
      | some l =>
        have h1 : l ≤ t := hl l rfl
        unfold newer at hn
        rw [decide_eq_false_iff_not, UInt64.not_lt] at hn
        have : l = t := UInt64.le_antisymm h1 hn
        subst this
        rw [records_none ys hy]
        rfl
  | cons m ms ih =>
    intro last hl hms v hy
    have hm := hms m List.mem_cons_self
    have hms := fun x hx => hms x (List.mem_cons_of_mem _ hx)
    rw [List.cons_append, List.cons_append]
    unfold records
    split
    · rw [ih _ (fun l h => by cases h; exact hm) hms v hy]
    · exact ih _ hl hms v hy

end Wasm

/-- C92, what holds always: a call of a page is the call of the interface with the times reduced modulo 2^32. -/
theorem C92_reduced (env : Env V) (F : Factory V) (r : WasmReq V) : F.serveWasm env r = F.serve env (meant (withTimes (· % 2 ^ 32) r)) := Wasm.serve_eq env F r

/-- C92: sequences of calls of a page with times below 2^32 have the outcomes of the calls that the page means. Missing: larger times (`C92_violated`). -/
theorem C92_calls_partial (env : Env V) (rs : List (WasmReq V)) : ∀ (F : Factory V), (∀ r ∈ rs, ∀ t ∈ timesOf r, t < 2 ^ 32) →
    wasmOutcomes env F rs = outcomes env F (rs.map meant) := by
  induction rs with
  | nil => intro F _; rfl
  | cons r rs ih =>
    intro F h
    unfold wasmOutcomes
    rw [List.map_cons]
    unfold outcomes
    rw [C92_reduced, Wasm.same r (h r List.mem_cons_self), ih _ fun x hx => h x (List.mem_cons_of_mem _ hx)]

omit [Num V] in
/-- C92: times of one period of 2^32, in increasing order, arrive in increasing order. -/
theorem C92_period (k : Nat) (ms : List (Nat × V)) (hk : ∀ x ∈ ms, k * 2 ^ 32 ≤ x.1 ∧ x.1 < (k + 1) * 2 ^ 32) (h : ms.Pairwise fun x y => x.1 < y.1) : Increasing (arriving ms) := by
  unfold Increasing arriving
  rw [List.pairwise_map]
  refine h.imp_of_mem fun {x y} hx hy hxy => ?_
  have h1 := hk x hx
  have h2 := hk y hy
  dsimp only
  rw [UInt64.lt_iff_toNat_lt, UInt64.toNat_ofNat', UInt64.toNat_ofNat']
  omega

/-- C92: once a time that is 2^32 - 1 modulo 2^32 has arrived on a port of the Input of a program, the port passes on nothing any more, whatever a page sends. -/
theorem C92_silent (id : Str) (n k : Nat) (hk1 : 1 ≤ k) (hk2 : k ≤ n) (xs ys : List (Nat × V)) (t : Nat) (ht : t % 2 ^ 32 = 2 ^ 32 - 1) (v : V) :
    ∃ o outs outs', Op.newInput id n = .ok o ∧ results o (oneByOne ((arriving (xs ++ [(t, v)])).map fun m => (iPort k, m))) = outs.map .ok ∧
      results o (oneByOne ((arriving (xs ++ (t, v) :: ys)).map fun m => (iPort k, m))) = outs'.map .ok ∧ emittedOn (oPort k) outs' = emittedOn (oPort k) outs := by
  have hv : ∀ ms : List (Msg V), ∀ x ∈ ms.map fun m => (iPort k, m), IsPort iPort n x.1 := by
    intro ms x hx
    obtain ⟨m, _, rfl⟩ := List.mem_map.1 hx
    exact ⟨k, hk1, hk2, rfl⟩
  have hf : ∀ ms : List (Msg V), ((ms.map fun m => (iPort k, m)).filter fun x => decide (x.1 = iPort k)).map (·.2) = ms := by
    intro ms
    rw [List.filter_eq_self.2, List.map_map]
    · exact List.map_id _
    · intro x hx
      obtain ⟨m, _, rfl⟩ := List.mem_map.1 hx
      exact decide_eq_true rfl
  obtain ⟨o, outs, h1, h2, h3⟩ := C01_records id n _ (hv (arriving (xs ++ [(t, v)])))
  obtain ⟨o', outs', h4, h5, h6⟩ := C01_records id n _ (hv (arriving (xs ++ (t, v) :: ys)))
  rw [h1] at h4
  cases h4
  refine ⟨o, outs, outs', h1, h2, h5, ?_⟩
  rw [(h6 k hk1 hk2).1, (h3 k hk1 hk2).1, hf, hf]
  have hle : ∀ zs : List (Nat × V), ∀ m ∈ arriving zs, m.time ≤ UInt64.ofNat (t % 2 ^ 32) := by
    intro zs m hm
    obtain ⟨x, _, rfl⟩ := List.mem_map.1 hm
    rw [UInt64.le_iff_toNat_le, UInt64.toNat_ofNat', UInt64.toNat_ofNat']
    omega
  have e1 : arriving (xs ++ (t, v) :: ys) = arriving xs ++ ⟨UInt64.ofNat (t % 2 ^ 32), v⟩ :: arriving ys := by
    unfold arriving; rw [List.map_append, List.map_cons]
  have e2 : arriving (xs ++ [(t, v)]) = arriving xs ++ [⟨UInt64.ofNat (t % 2 ^ 32), v⟩] := by
    unfold arriving; rw [List.map_append]; rfl
  rw [e1, e2]
  exact Wasm.records_append _ _ none (fun l h => by cases h) (hle xs) v (hle ys)

/-! ### Cases -/

/-- An Input that leads to a running sum. -/
def Spec.pageJson : Json Int64 := .obj [(b!"connections", .arr [.obj [(b!"from", .str b!"in"), (b!"to", .str b!"sum")]]), (b!"entryOperator", .str b!"in"),
  (b!"operators", .arr [.obj [(b!"id", .str b!"in"), (b!"numPorts", .uint 1), (b!"type", .str b!"Input")], .obj [(b!"id", .str b!"sum"), (b!"type", .str b!"CumulativeSum")]]),
  (b!"output", .obj [(b!"sum", .arr [.str b!"o1"])])]

def Spec.pageEnv : Env Int64 := ⟨always pageJson, fun _ => none, 9⟩

/-- Three messages with times in milliseconds, on 24 November 2023. -/
def Spec.pageCalls : List (WasmReq Int64) := [.create (fun _ => (0, 0)) b!"A" b!"{}", .batch false b!"A" [1700807049000, 1700807049215] [5, 6] [i1, i1],
  .add b!"A" i1 1700807050000 7, .processBuffer false b!"A"]

/-- C92 is violated for times from 2^32 on, such as times in milliseconds: the reports of the browser show other times than the messages have, and the third message is lost, while the
calls that are meant report all three. -/
theorem C92_violated :
    wasmOutcomes pageEnv Factory.empty pageCalls = [.ok (.text []), .ok (.report [(b!"sum", [(o1, [⟨4294967080, 5⟩, ⟨4294967295, 11⟩])])]), .ok (.flag true), .ok (.report [])] ∧
    outcomes pageEnv Factory.empty (pageCalls.map meant) = [.ok (.text []), .ok (.report [(b!"sum", [(o1, [⟨1700807049000, 5⟩, ⟨1700807049215, 11⟩])])]), .ok (.flag true),
      .ok (.report [(b!"sum", [(o1, [⟨1700807050000, 18⟩])])])] := by
  constructor <;> decide +kernel

/-- Calls with times in seconds. -/
example : wasmOutcomes pageEnv Factory.empty [.create (fun _ => (0, 0)) b!"A" b!"{}", .batch false b!"A" [1700807049, 1700807050] [5, 6] [i1, i1]] =
    [.ok (.text []), .ok (.report [(b!"sum", [(o1, [⟨1700807049, 5⟩, ⟨1700807050, 11⟩])])])] := by decide +kernel

example : Increasing (arriving ([(1700807049000, 5), (1700807049215, 6)] : List (Nat × ℚ))) :=
  C92_period 395 _ (by simp) (by simp)

example : (1700807049215 : Nat) % 2 ^ 32 = 2 ^ 32 - 1 := by decide

end Rtbot
