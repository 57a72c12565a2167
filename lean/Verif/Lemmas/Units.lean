import Verif.Spec.Units
import Verif.Lemmas.Mapped
import Mathlib.Tactic.Ring
import Mathlib.Tactic.Linarith

/-! # Operators in another unit -/

set_option linter.unusedSectionVars false

namespace Rtbot
namespace Measures
open Spec Mapped
variable {V : Type}

theorem bind_conv {α α' β β' : Type} {x : Except Err α} {y : Except Err α'} {f : α → α'} {g : α → Except Err β} {g' : α' → Except Err β'} {r : β → β'}
    (hx : y = x.map f) (h : ∀ a, g' (f a) = (g a).map r) : (y >>= g') = (x >>= g).map r := by
  subst hx
  cases x with
  | error e => rfl
  | ok a => exact h a

section maps
variable {α : Type} (f : α → α)

/-- A function on the values of a map. -/
def onVals (m : Map α) : Map α := m.map fun e => (e.1, f e.2)

theorem find_conv (m : Map α) (k : Str) : (onVals f m).find? k = (m.find? k).map f := by
  induction m with
  | nil => rfl
  | cons e m ih =>
    unfold onVals at *
    rw [List.map_cons, Map.find?_cons, Map.find?_cons, ih]
    split <;> rfl

theorem keys_conv (m : Map α) : (onVals f m).keys = m.keys := by
  unfold onVals Map.keys
  rw [List.map_map]
  rfl

theorem has_conv (m : Map α) (k : Str) : (onVals f m).has k = m.has k := by
  unfold Map.has
  rw [find_conv]
  cases m.find? k <;> rfl

theorem put_conv (m : Map α) (k : Str) (x : α) : (onVals f m).put k (f x) = onVals f (m.put k x) := by
  induction m with
  | nil => rfl
  | cons e m ih =>
    obtain ⟨k', v⟩ := e
    unfold onVals at *
    rw [List.map_cons]
    unfold Map.put
    dsimp only
    split
    · rfl
    · split
      · rfl
      · rw [ih]; rfl

theorem emplace_conv (m : Map α) (k : Str) (x : α) : (onVals f m).emplace k (f x) = onVals f (m.emplace k x) := by
  unfold Map.emplace
  rw [has_conv, put_conv]
  split <;> rfl

theorem erase_conv (m : Map α) (k : Str) : (onVals f m).erase k = onVals f (m.erase k) := by
  unfold Map.erase onVals
  rw [List.filter_map]
  rfl

end maps

variable [Num V] [Field V] [LinearOrder V] [IsStrictOrderedRing V] [Exact V] {c : V}

/-- The result of `processData` in the new unit. -/
def convRes (c : V) (x : OpMsg V × Kind V) : OpMsg V × Kind V := (convOut c x.1, convKind c x.2)

theorem lt_conv (hc : 0 < c) (a b : V) : Num.lt (c * a) (c * b) = Num.lt a b := by
  rw [Bool.eq_iff_iff, Exact.lt_iff, Exact.lt_iff, mul_lt_mul_iff_right₀ hc]

theorem eq_conv (hc : 0 < c) (a b : V) : Num.eq (c * a) (c * b) = Num.eq a b := by
  rw [Bool.eq_iff_iff, Exact.eq_iff, Exact.eq_iff, mul_right_inj' hc.ne']

theorem data_eq (co : Core V) : (convCore c co).dataIn = onVals (convInp c) co.dataIn := rfl

theorem ctrl_eq (co : Core V) : (convCore c co).ctrlIn = onVals (convInp c) co.ctrlIn := rfl

theorem zero_conv : convMsg c (Msg.zero : Msg V) = Msg.zero := by
  unfold convMsg Msg.zero
  rw [Exact.ofNat_eq, Nat.cast_zero, mul_zero]

theorem solePort_conv (co : Core V) : (convCore c co).solePort = co.solePort.map id := by
  unfold Core.solePort convCore
  dsimp only
  rcases co.dataIn with _ | ⟨⟨k, i⟩, _ | ⟨e, l⟩⟩ <;> rfl

theorem dataPort_conv (co : Core V) (p : Str) : (convCore c co).dataPort p = (co.dataPort p).map (convInp c) := by
  unfold Core.dataPort
  rw [data_eq, find_conv]
  cases co.dataIn.find? p <;> rfl

theorem dataMsg_conv (co : Core V) (p : Str) (k : Nat) : (convCore c co).dataMsg p k = (co.dataMsg p k).map (convMsg c) := by
  unfold Core.dataMsg
  rw [data_eq, find_conv]
  cases co.dataIn.find? p with
  | none => rfl
  | some i =>
    dsimp only [Option.map_some, convInp]
    by_cases h : i.data = []
    · rw [if_pos h, if_pos (by rw [h]; rfl)]
      exact congrArg Except.ok zero_conv.symm
    · rw [if_neg h, if_neg (by rw [List.map_eq_nil_iff]; exact h), List.getElem?_map]
      cases i.data[k]? <;> rfl

theorem dataLast_conv (co : Core V) (p : Str) : (convCore c co).dataLast p = (co.dataLast p).map (convMsg c) := by
  unfold Core.dataLast
  rw [data_eq, find_conv]
  cases co.dataIn.find? p with
  | none => rfl
  | some i =>
    dsimp only [Option.map_some, convInp]
    rw [List.getLast?_map]
    cases i.data.getLast? with
    | none => exact congrArg Except.ok zero_conv.symm
    | some m => rfl

theorem dataFirst_conv (co : Core V) (p : Str) : (convCore c co).dataFirst p = (co.dataFirst p).map (convMsg c) := by
  unfold Core.dataFirst
  rw [data_eq, find_conv]
  cases co.dataIn.find? p with
  | none => rfl
  | some i =>
    dsimp only [Option.map_some, convInp]
    rw [List.head?_map]
    cases i.data.head? with
    | none => exact congrArg Except.ok zero_conv.symm
    | some m => rfl

theorem resolveData_conv (co : Core V) (p : Str) : (convCore c co).resolveData p = co.resolveData p := by
  unfold Core.resolveData convCore
  dsimp only
  rcases co.dataIn with _ | ⟨⟨k, i⟩, _ | ⟨e, l⟩⟩ <;> rfl

theorem resolveCtrl_conv (co : Core V) (p : Str) : (convCore c co).resolveCtrl p = co.resolveCtrl p := by
  unfold Core.resolveCtrl convCore
  dsimp only
  rcases co.ctrlIn with _ | ⟨⟨k, i⟩, _ | ⟨e, l⟩⟩ <;> rfl

theorem push_conv (i : Inp V) (m : Msg V) : (convInp c i).push (convMsg c m) = convInp c (i.push m) := by
  unfold Inp.push convInp
  dsimp only [convMsg]
  rw [Exact.add_eq, Exact.add_eq, List.map_append, mul_add]
  rfl

theorem popSum_conv (i : Inp V) : (convInp c i).popSum = i.popSum.map (convInp c) := by
  obtain ⟨id, max, sum, data⟩ := i
  unfold Inp.popSum convInp
  cases data with
  | nil => rfl
  | cons m l =>
    change some _ = some _
    dsimp only [convMsg]
    rw [Exact.sub_eq, Exact.sub_eq, mul_sub]

theorem receive_conv (i : Inp V) (m : Msg V) : (convInp c i).receive (convMsg c m) = (i.receive m).map (convInp c) := by
  unfold Inp.receive
  rw [popSum_conv]
  rw [show (convInp c i).max = i.max from rfl, show (convInp c i).data.length = i.data.length from List.length_map _]
  split
  · cases i.popSum with
    | none => rfl
    | some i' => exact congrArg Except.ok (push_conv i' m)
  · split
    · rfl
    · exact congrArg Except.ok (push_conv i m)

theorem receiveDataBase_conv (co : Core V) (m : Msg V) (p : Str) :
    (convCore c co).receiveDataBase (convMsg c m) p = (co.receiveDataBase m p).map (convCore c) := by
  unfold Core.receiveDataBase
  rw [resolveData_conv, data_eq]
  dsimp only
  rw [find_conv]
  cases co.dataIn.find? (co.resolveData p) with
  | none => rfl
  | some i =>
    refine bind_conv (receive_conv i m) fun i' => ?_
    rw [put_conv]
    rfl

theorem receiveCtrlBase_conv (co : Core V) (m : Msg V) (p : Str) :
    (convCore c co).receiveCtrlBase (convMsg c m) p = (co.receiveCtrlBase m p).map (convCore c) := by
  unfold Core.receiveCtrlBase
  rw [resolveCtrl_conv, ctrl_eq]
  dsimp only
  rw [find_conv]
  cases co.ctrlIn.find? (co.resolveCtrl p) with
  | none => rfl
  | some i =>
    refine bind_conv (receive_conv i m) fun i' => ?_
    rw [put_conv]
    rfl

theorem receiveDataJoin_conv (co : Core V) (m : Msg V) (p : Str) :
    (convCore c co).receiveDataJoin (convMsg c m) p = (co.receiveDataJoin m p).map (convCore c) := by
  unfold Core.receiveDataJoin
  split
  · rfl
  · rw [data_eq, find_conv]
    cases co.dataIn.find? p with
    | none => rfl
    | some i =>
      dsimp only [Option.map_some]
      rw [push_conv, put_conv]
      rfl

theorem receiveDataAR_conv (co : Core V) (m : Msg V) (p : Str) :
    (convCore c co).receiveDataAR (convMsg c m) p = (co.receiveDataAR m p).map (convCore c) := by
  unfold Core.receiveDataAR
  rw [resolveData_conv, data_eq]
  dsimp only
  rw [find_conv]
  cases co.dataIn.find? (co.resolveData p) with
  | none => rfl
  | some i =>
    dsimp only [Option.map_some]
    rw [show (convInp c i).max = i.max from rfl, show (convInp c i).data.length = i.data.length from List.length_map _]
    split
    · rfl
    · rw [show (⟨(convInp c i).id, i.max, (convInp c i).sum, (convInp c i).data ++ List.replicate (i.max - i.data.length) Msg.zero ++ [convMsg c m]⟩ : Inp V) =
        convInp c { i with data := i.data ++ List.replicate (i.max - i.data.length) Msg.zero ++ [m] } by
          unfold convInp
          dsimp only
          rw [List.map_append, List.map_append, List.map_replicate, zero_conv]
          rfl, put_conv]
      rfl

theorem recvData_conv (o : Op V) (hu : HasUnit c o.kind) (m : Msg V) (p : Str) :
    (convOp c o).recvData (convMsg c m) p = (o.recvData m p).map (convOp c) := by
  obtain ⟨co, k⟩ := o
  unfold Op.recvData
  cases k <;> first
    | exact hu.elim
    | exact bind_conv (receiveDataBase_conv co m p) fun _ => rfl
    | exact bind_conv (receiveDataJoin_conv co m p) fun _ => rfl
    | exact bind_conv (receiveDataAR_conv co m p) fun _ => rfl

theorem recvCtrl_conv (o : Op V) (hu : HasUnit c o.kind) (m : Msg V) (p : Str) :
    (convOp c o).recvCtrl (convMsg c m) p = (o.recvCtrl m p).map (convOp c) := by
  obtain ⟨co, k⟩ := o
  unfold Op.recvCtrl
  cases k <;> first
    | exact hu.elim
    | exact bind_conv (receiveCtrlBase_conv co m p) fun _ => rfl

end Measures
end Rtbot
