import Verif.Lemmas.Buffers

/-! # C02: port buffers are sliding windows -/

namespace Rtbot
open Spec
variable {V : Type} [Num V]

/-- C02: a data port created with size n > 0 of an operator that uses the standard `receiveData`/`executeData` (`Kind.isBase`: all
but Join, BinaryJoin, Linear, Demultiplexer, AutoRegressive, Variable, Composite, Pipeline). After any sequence of calls on the
operator (receives on any data or control port, executions, failing or not), the buffer holds exactly the last n of the messages
addressed to the port, in arrival order, and the next receive on the port cannot fail. -/
theorem C02_sliding_window (o : Op V) (hk : o.kind.isBase = true) (hw : o.core.WF) (p : Str) (n : Nat) (hn : 0 < n)
    (hp : o.core.dataIn.find? p = some (Inp.new p n)) (as : List (Act V)) :
    (∃ i, (after o as).core.dataIn.find? p = some i ∧
      i.data = lastN n (addressed (o.core.dataIn.length == 1) p as)) ∧
    ∀ m q, q = p ∨ (q = [] ∧ o.core.dataIn.length = 1) → ∃ o', (after o as).recvData m q = .ok o' := by
  have h0 : Buffers.Inv (o.core.dataIn.length == 1) p n [] o := by
    refine ⟨hk, hw, by simp, Inp.new p n, hp, ?_, ?_⟩
    · simp [Inp.new, Nat.pos_iff_ne_zero.1 hn]
    · simp [Inp.new, lastN]
  have h := Buffers.inv_after hn as h0
  rw [List.nil_append] at h
  refine ⟨?_, ?_⟩
  · obtain ⟨i, h1, _, h3⟩ := h.win
    exact ⟨i, h1, h3⟩
  · intro m q hq
    obtain ⟨o', hok, _⟩ := Buffers.inv_recv hn h q (by simpa using hq) m
    exact ⟨o', hok⟩

/-- A concrete case: MovingAverage of size 3 with five messages, executions in between. -/
example (a b c d e : Msg V) :
    (Op.newMovAvg [65] 3 : Op V).kind.isBase = true ∧
    (Op.newMovAvg [65] 3 : Op V).core.WF ∧
    (Op.newMovAvg [65] 3 : Op V).core.dataIn.find? i1 = some (Inp.new i1 3) ∧
    lastN 3 (addressed ((Op.newMovAvg [65] 3 : Op V).core.dataIn.length == 1) i1
      [.recvData i1 a, .recvData [] b, .execData, .recvData i1 c, .recvData [1] a, .execData, .recvData [] d, .recvData i1 e])
      = [c, d, e] :=
  ⟨rfl, ⟨by simp [Op.newMovAvg, Core.simple, Map.Sorted, Map.keys], by simp [Op.newMovAvg, Core.simple, Map.Sorted, Map.keys]⟩,
    by simp [Op.newMovAvg, Core.simple], rfl⟩

end Rtbot
