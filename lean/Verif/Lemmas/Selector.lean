import Verif.Lemmas.Wave
import Verif.Lemmas.Wrap
import Verif.Spec.Selector
import Verif.Spec.Gate

/-! # Steps of the program of C93 -/

namespace Rtbot.Selector
open Spec Wave
variable {V : Type} [Num V]

def o2 : Str := b!"o2"
def c2 : Str := b!"c2"

/-- An operator with one data port and one output. -/
def qop (id : Str) (w : Map (List Conn)) (K : Kind V) (tp : List Str) (i : Inp V) : Op V := ⟨{ id := id, dataIn := [(i1, i)], ctrlIn := [], outIds := [o1], outputs := w, toProcess := tp }, K⟩

/-- Room for one message. -/
def One (i : Inp V) : Prop := i.max = 1 ∧ i.data.length ≤ 1

/-- The buffer holds the message. -/
def Got (m : Msg V) (i : Inp V) : Prop := i.max = 1 ∧ i.data = [m]

omit [Num V] in
theorem Got.one {m : Msg V} {i : Inp V} (h : Got m i) : One i := ⟨h.1, by rw [h.2]; exact Nat.le_refl _⟩

theorem receive_one {i : Inp V} (h : One i) (m : Msg V) : ∃ i', i.receive m = .ok i' ∧ Got m i' := by
  obtain ⟨h1, h2⟩ := h
  unfold Inp.receive
  match hd : i.data with
  | [] =>
    refine ⟨i.push m, ?_, h1, ?_⟩
    · rw [h1]; rfl
    · show i.data ++ [m] = [m]
      rw [hd]; rfl
  | [x] =>
    have hp : i.popSum = some { i with data := [], sum := i.sum -. x.value } := by
      unfold Inp.popSum
      rw [hd]
    refine ⟨Inp.push { i with data := [], sum := i.sum -. x.value } m, ?_, h1, rfl⟩
    rw [hp]
    dsimp only
    rw [if_pos (by rw [h1]; rfl)]
  | x :: y :: l => rw [hd] at h2; simp at h2

/-- Kinds that receive and execute as the base class does. -/
def Base (K : Kind V) : Prop := (∀ (c : Core V) m p, (⟨c, K⟩ : Op V).recvData m p = (c.receiveDataBase m p).map fun c => ⟨c, K⟩) ∧ (∀ c : Core V, (⟨c, K⟩ : Op V).execData = (⟨c, K⟩ : Op V).execBase) ∧
  ∀ c : Core V, Own (⟨c, K⟩ : Op V)

theorem base_count (n : UInt64) : Base (.count n : Kind V) := by
  refine ⟨fun c m p => ?_, fun c => rfl, fun c => ⟨fun _ _ h => (by cases h), fun _ _ _ h => (by cases h)⟩⟩
  show (c.receiveDataBase m p >>= fun c => Except.ok (⟨c, .count n⟩ : Op V)) = _
  cases c.receiveDataBase m p <;> rfl

theorem base_filter (f : FilterOp) (v : V) : Base (.filter f v : Kind V) := by
  refine ⟨fun c m p => ?_, fun c => rfl, fun c => ⟨fun _ _ h => (by cases h), fun _ _ _ h => (by cases h)⟩⟩
  show (c.receiveDataBase m p >>= fun c => Except.ok (⟨c, .filter f v⟩ : Op V)) = _
  cases c.receiveDataBase m p <;> rfl

theorem base_constant (v : V) : Base (.constant v : Kind V) := by
  refine ⟨fun c m p => ?_, fun c => rfl, fun c => ⟨fun _ _ h => (by cases h), fun _ _ _ h => (by cases h)⟩⟩
  show (c.receiveDataBase m p >>= fun c => Except.ok (⟨c, .constant v⟩ : Op V)) = _
  cases c.receiveDataBase m p <;> rfl

theorem base_input (pm : Map Str) (last : Map (Msg V)) : Base (.input pm last : Kind V) := by
  refine ⟨fun c m p => ?_, fun c => rfl, fun c => ⟨fun _ _ h => (by cases h), fun _ _ _ h => (by cases h)⟩⟩
  show (c.receiveDataBase m p >>= fun c => Except.ok (⟨c, .input pm last⟩ : Op V)) = _
  cases c.receiveDataBase m p <;> rfl

theorem q_recv {id : Str} {w : Map (List Conn)} {K : Kind V} {i : Inp V} (hK : Base K) (hi : One i) (m : Msg V) :
    ∃ i', (qop id w K [] i).recvData m i1 = .ok (qop id w K [i1] i') ∧ Got m i' := by
  obtain ⟨i', h1, h2⟩ := receive_one hi m
  refine ⟨i', ?_, h2⟩
  unfold qop
  rw [hK.1]
  have : Core.receiveDataBase (⟨id, [(i1, i)], [], [o1], w, []⟩ : Core V) m i1 = (i.receive m >>= fun i' => .ok ⟨id, [(i1, i')], [], [o1], w, [i1]⟩) := rfl
  rw [this, h1]
  rfl

theorem q_exec {id : Str} {w : Map (List Conn)} {K K' : Kind V} {i : Inp V} {m : Msg V} {out : OpMsg V} (hK : Base K) (hi : Got m i)
    (hp : (qop id w K [i1] i).process = .ok (out, K')) : (qop id w K [i1] i).execData = .ok out (qop id w K' [] i) := by
  have h0 : (qop id w K [i1] i).execData = (qop id w K [i1] i).execBase := hK.2.1 _
  rw [h0]
  have hr : (qop id w K [i1] i).core.readyPorts = .ok [i1] := by
    show (if ([i1] : List Str).all (Core.isData _) then Except.ok ([i1].filter fun p => match Map.find? ([(i1, i)] : Map (Inp V)) p with
      | some i => decide (i.max ≤ i.data.length)
      | none => false) else throwExc .badPort) = _
    have : (match Map.find? ([(i1, i)] : Map (Inp V)) i1 with
      | some i => decide (i.max ≤ i.data.length)
      | none => false) = true := by
      show decide (i.max ≤ i.data.length) = true
      rw [hi.1, hi.2]
      rfl
    rw [if_pos (by rfl)]
    rw [List.filter_cons, if_pos this]
    rfl
  unfold Op.execBase
  rw [hr]
  dsimp only
  rw [if_neg (by simp)]
  show (match (qop id w K [i1] i).process with | .error e => _ | .ok (out, k) => _) = _
  rw [hp]
  rfl

omit [Num V] in
theorem last_got [Num V] {id : Str} {w : Map (List Conn)} {i : Inp V} {m : Msg V} {tp : List Str} (hi : Got m i) {K : Kind V} (f : Msg V → Except Err (OpMsg V × Kind V)) :
    procLast (qop id w K tp i).core f = f m := by
  show ((Core.dataLast (qop id w K tp i).core i1) >>= f) = f m
  have : Core.dataLast (qop id w K tp i).core i1 = .ok m := by
    show (match i.data.getLast? with | some m => Except.ok m | none => .ok Msg.zero) = _
    rw [hi.2]
    rfl
  rw [this]
  rfl

theorem exec_count {id : Str} {w : Map (List Conn)} {n : UInt64} {i : Inp V} {m : Msg V} (hi : Got m i) :
    (qop id w (.count n) [i1] i).execData = .ok (single ⟨m.time, ofTime (n + 1)⟩) (qop id w (.count (n + 1)) [] i) := q_exec (base_count n) hi (last_got hi _)

theorem exec_filter {id : Str} {w : Map (List Conn)} {f : FilterOp} {v : V} {i : Inp V} {m : Msg V} (hi : Got m i) :
    (qop id w (.filter f v) [i1] i).execData = .ok (if f.eval m.value v then single m else []) (qop id w (.filter f v) [] i) := q_exec (base_filter f v) hi (last_got hi _)

theorem exec_constant {id : Str} {w : Map (List Conn)} {v : V} {i : Inp V} {m : Msg V} (hi : Got m i) :
    (qop id w (.constant v) [i1] i).execData = .ok (single ⟨m.time, v⟩) (qop id w (.constant v) [] i) := q_exec (base_constant v) hi (last_got hi _)

/-- The last message sent by the Input. -/
def sentMap : Option (Msg V) → Map (Msg V)
  | none => []
  | some m => [(i1, m)]

theorem exec_input {id : Str} {w : Map (List Conn)} {l : Option (Msg V)} {i : Inp V} {m : Msg V} (hi : Got m i) :
    (qop id w (.input [(i1, o1)] (sentMap l)) [i1] i).execData = if newer (l.map (·.time)) m.time then .ok (single m) (qop id w (.input [(i1, o1)] (sentMap (some m))) [] i)
      else .ok [] (qop id w (.input [(i1, o1)] (sentMap l)) [] i) := by
  have hm : Core.dataMsg (qop id w (.input [(i1, o1)] (sentMap l)) [i1] i).core i1 0 = .ok m := by
    show (if i.data = [] then Except.ok Msg.zero else match i.data[0]? with | some m => .ok m | none => throwExc .outOfRange) = _
    rw [hi.2]
    rfl
  have hp : (qop id w (.input [(i1, o1)] (sentMap l)) [i1] i).process = .ok (if newer (l.map (·.time)) m.time then (single m, .input [(i1, o1)] (sentMap (some m))) else ([], .input [(i1, o1)] (sentMap l))) := by
    show procInput (qop id w (.input [(i1, o1)] (sentMap l)) [i1] i).core [(i1, o1)] (sentMap l) = _
    unfold procInput
    show (List.foldlM (inputStep (qop id w (.input [(i1, o1)] (sentMap l)) [i1] i).core [(i1, o1)]) ([], sentMap l) [i1] >>= _) = _
    rw [List.foldlM_cons]
    unfold inputStep
    rw [hm]
    cases l with
    | none => rfl
    | some x =>
      by_cases h : x.time < m.time
      · simp [sentMap, Map.find?, newer, h, bind, Except.bind, pure, Except.pure, Map.erase, Map.emplace, single, i1, o1]
        exact ⟨rfl, rfl⟩
      · simp [sentMap, Map.find?, newer, h, bind, Except.bind, pure, Except.pure, Map.erase, Map.emplace, single, i1, o1]
  by_cases h : newer (l.map (·.time)) m.time
  · rw [if_pos h] at hp ⊢
    exact q_exec (base_input _ _) hi hp
  · rw [if_neg h] at hp ⊢
    exact q_exec (base_input _ _) hi hp

/-- The Demultiplexer. -/
def dm (s s1 s2 : V) (D C1 C2 : List (Msg V)) : Op V :=
  ⟨{ id := b!"dm", dataIn := [(i1, ⟨i1, sizeMax, s, D⟩)], ctrlIn := [(c1, ⟨c1, sizeMax, s1, C1⟩), (c2, ⟨c2, sizeMax, s2, C2⟩)], outIds := [o1, o2], outputs := [], toProcess := [] },
    .demux [(c1, o1), (c2, o2)]⟩

omit [Num V] in
theorem dm_own (s s1 s2 : V) (D C1 C2 : List (Msg V)) : Own (dm s s1 s2 D C1 C2) := ⟨fun _ _ h => (by cases h), fun _ _ _ h => (by cases h)⟩

theorem dm_data (s s1 s2 : V) (m : Msg V) : (dm s s1 s2 [] [] []).recvData m i1 = .ok (dm (s +. m.value) s1 s2 [m] [] []) := rfl

theorem dm_ctrl1 (s s1 s2 : V) (m c : Msg V) (C2 : List (Msg V)) : (dm s s1 s2 [m] [] C2).recvCtrl c c1 = .ok (dm s (s1 +. c.value) s2 [m] [c] C2) := rfl

theorem dm_ctrl2 (s s1 s2 : V) (m c : Msg V) (C1 : List (Msg V)) : (dm s s1 s2 [m] C1 []).recvCtrl c c2 = .ok (dm s s1 (s2 +. c.value) [m] C1 [c]) := rfl

/-- 0 or 1. -/
def Bit (v : V) : Prop := (Num.eq v (Num.ofNat 1) || Num.eq v (Num.ofNat 0)) = true

theorem dm_wait0 (s s1 s2 : V) (m : Msg V) : (dm s s1 s2 [m] [] []).execData = .ok [] (dm s s1 s2 [m] [] []) := rfl

theorem dm_wait1 (s s1 s2 : V) (m : Msg V) {v : V} (hv : Bit v) : (dm s s1 s2 [m] [⟨m.time, v⟩] []).execCtrl = .ok [] (dm s s1 s2 [m] [⟨m.time, v⟩] []) := by
  unfold Bit at hv
  simp [Op.execCtrl, Op.execDemux, dm, demuxScan, Inp.dropOlder, Inp.dropOlder.go, hv, Except.map]

theorem dm_wait2 (s s1 s2 : V) (m : Msg V) {v : V} (hv : Bit v) : (dm s s1 s2 [m] [] [⟨m.time, v⟩]).execCtrl = .ok [] (dm s s1 s2 [m] [] [⟨m.time, v⟩]) := by
  unfold Bit at hv
  simp [Op.execCtrl, Op.execDemux, dm, demuxScan, Inp.dropOlder, Inp.dropOlder.go, hv, Except.map]

theorem dm_first {B : Nat} (hT : Tells V B) (hB : 1 ≤ B) (s s1 s2 : V) (m : Msg V) : ∃ s' s1' s2', (dm s s1 s2 [m] [⟨m.time, Num.ofNat 1⟩] [⟨m.time, Num.ofNat 0⟩]).execCtrl =
    .ok [(o1, [m])] (dm s' s1' s2' [] [] []) := by
  have h11 : Num.eq (Num.ofNat 1 : V) (Num.ofNat 1) = true := by simpa using (hT 1 1 hB hB).2
  have h00 : Num.eq (Num.ofNat 0 : V) (Num.ofNat 0) = true := by simpa using (hT 0 0 (by omega) (by omega)).2
  have h01 : Num.eq (Num.ofNat 0 : V) (Num.ofNat 1) = false := by simpa using (hT 0 1 (by omega) hB).2
  refine ⟨s -. m.value, s1 -. Num.ofNat 1, s2 -. Num.ofNat 0, ?_⟩
  simp [Op.execCtrl, Op.execDemux, dm, demuxScan, Inp.dropOlder, Inp.dropOlder.go, h11, h00, h01, Except.map, demuxMessages, Map.find?, Map.emplace, popAll, Inp.popSum, bind, Except.bind]
  rfl

theorem dm_second {B : Nat} (hT : Tells V B) (hB : 1 ≤ B) (s s1 s2 : V) (m : Msg V) : ∃ s' s1' s2', (dm s s1 s2 [m] [⟨m.time, Num.ofNat 0⟩] [⟨m.time, Num.ofNat 1⟩]).execCtrl =
    .ok [(o2, [m])] (dm s' s1' s2' [] [] []) := by
  have h11 : Num.eq (Num.ofNat 1 : V) (Num.ofNat 1) = true := by simpa using (hT 1 1 hB hB).2
  have h00 : Num.eq (Num.ofNat 0 : V) (Num.ofNat 0) = true := by simpa using (hT 0 0 (by omega) (by omega)).2
  have h01 : Num.eq (Num.ofNat 0 : V) (Num.ofNat 1) = false := by simpa using (hT 0 1 (by omega) hB).2
  refine ⟨s -. m.value, s1 -. Num.ofNat 0, s2 -. Num.ofNat 1, ?_⟩
  simp [Op.execCtrl, Op.execDemux, dm, demuxScan, Inp.dropOlder, Inp.dropOlder.go, h11, h00, h01, Except.map, demuxMessages, Map.find?, Map.emplace, popAll, Inp.popSum, bind, Except.bind, c1, c2]
  rfl

/-! ### Parts of a wave -/

theorem fold_step {σ α β : Type} {f : β → α → M σ β} {x : α} {xs : List α} {b b' : β} {s s' : σ} {r : Res σ β} (h : f b x s = .ok b' s') (h2 : M.fold f xs b' s' = r) :
    M.fold f (x :: xs) b s = r := by
  rw [fold_cons, h]
  exact h2

/-- What is emitted on port `p`. -/
def pick (p : Str) (out : OpMsg V) : List (Msg V) := out.flatMap fun x => if x.1 = p then x.2 else []

/-- The Demultiplexer executes on a control message. -/
theorem dm_fire {l : List (Op V)} {d f : Nat} {g : List (Ev V)} {s s1 s2 s' s1' s2' : V} {D C1 C2 D' C1' C2' : List (Msg V)} {out : OpMsg V} {ctrl : Bool} (h2 : l[2]? = some (dm s s1 s2 D C1 C2))
    (hx : (if ctrl then (dm s s1 s2 D C1 C2).execCtrl else (dm s s1 s2 D C1 C2).execData) = .ok out (dm s' s1' s2' D' C1' C2'))
    (ho : out = [] ∨ ∃ m, out = [(o1, [m])] ∨ out = [(o2, [m])]) :
    ∃ r g', exec (f + 1) ctrl 2 (at_ l d g) = .ok r (at_ (l.set 2 (dm s' s1' s2' D' C1' C2')) d (g ++ g')) ∧ ∀ p, emittedBy 2 p g' = pick p out := by
  rcases ho with rfl | ⟨m, rfl | rfl⟩
  · exact ⟨_, _, exec_quiet h2 (dm_own _ _ _ _ _ _) hx, fun _ => rfl⟩
  · obtain ⟨r, hr⟩ := exec_last (d := d) (f := f) (g := g) h2 (dm_own _ _ _ _ _ _) hx (by rfl) (by rfl)
    refine ⟨r, [.exec 2 ctrl] ++ [.emit d 2 b!"dm" o1 m], ?_, fun p => ?_⟩
    · rw [hr, List.append_assoc]
      rfl
    · by_cases h : o1 = p <;> simp [emittedBy, pick, h]
  · obtain ⟨r, hr⟩ := exec_last (d := d) (f := f) (g := g) h2 (dm_own _ _ _ _ _ _) hx (by rfl) (by rfl)
    refine ⟨r, [.exec 2 ctrl] ++ [.emit d 2 b!"dm" o2 m], ?_, fun p => ?_⟩
    · rw [hr, List.append_assoc]
      rfl
    · by_cases h : o2 = p <;> simp [emittedBy, pick, h]

/-- A Constant connected to a control port of the Demultiplexer executes. -/
theorem const_fire {l : List (Op V)} {d f x : Nat} {g : List (Ev V)} {s s1 s2 t t1 t2 s' s1' s2' : V} {D C1 C2 E E1 E2 D' C1' C2' : List (Msg V)} {out : OpMsg V} {id : Str} {v : V} {i : Inp V} {m : Msg V} {cp : Str}
    (hx2 : x ≠ 2) (hx : l[x]? = some (qop id [(o1, [⟨2, cp⟩])] (.constant v) [i1] i)) (hi : Got m i) (h2 : l[2]? = some (dm s s1 s2 D C1 C2)) (hcp : cp = c1 ∨ cp = c2)
    (hr : (dm s s1 s2 D C1 C2).recvCtrl ⟨m.time, v⟩ cp = .ok (dm t t1 t2 E E1 E2)) (hc : (dm t t1 t2 E E1 E2).execCtrl = .ok out (dm s' s1' s2' D' C1' C2'))
    (ho : out = [] ∨ ∃ m, out = [(o1, [m])] ∨ out = [(o2, [m])]) :
    ∃ r g', exec (f + 2) false x (at_ l d g) = .ok r (at_ ((l.set x (qop id [(o1, [⟨2, cp⟩])] (.constant v) [] i)).set 2 (dm s' s1' s2' D' C1' C2')) d (g ++ g')) ∧
      ∀ p, emittedBy 2 p g' = pick p out := by
  have hlt : x < l.length := (List.getElem?_eq_some_iff.1 hx).1
  have hlt2 : 2 < l.length := (List.getElem?_eq_some_iff.1 h2).1
  have e2 : (l.set x (qop id [(o1, [⟨2, cp⟩])] (.constant v) [] i))[2]? = some (dm s s1 s2 D C1 C2) := by rw [List.getElem?_set_ne hx2]; exact h2
  have e3 : ((l.set x (qop id [(o1, [⟨2, cp⟩])] (.constant v) [] i)).set 2 (dm t t1 t2 E E1 E2))[2]? = some (dm t t1 t2 E E1 E2) := by
    rw [List.getElem?_set_self (by rw [List.length_set]; exact hlt2)]
  obtain ⟨r, g', k1, k2⟩ := dm_fire (f := f) (d := d) (ctrl := true) (g := g ++ [.exec x false] ++ [.emit d x id o1 ⟨m.time, v⟩] ++ [.recv (some (x, o1)) 2 cp true ⟨m.time, v⟩]) e3 hc ho
  have hd : ∀ s s1 s2 : V, ∀ D C1 C2, (dm s s1 s2 D C1 C2).core.isData cp = false := by rcases hcp with rfl | rfl <;> exact fun _ _ _ _ _ _ => rfl
  have hcc : ∀ s s1 s2 : V, ∀ D C1 C2, (dm s s1 s2 D C1 C2).core.isCtrl cp = true := by rcases hcp with rfl | rfl <;> exact fun _ _ _ _ _ _ => rfl
  obtain ⟨r', hr'⟩ := exec_one (ctrl := false) (d := d) (f := f + 1) (g := g) (cs := [⟨2, cp⟩]) hx ((base_constant v).2.2 _) (exec_constant hi) (by rfl) (by rfl)
    (fold_step (deliver_ctrl e2 (dm_own _ _ _ _ _ _) (hd _ _ _ _ _ _) (hcc _ _ _ _ _ _) hr) (fold_nil _ _ _))
    (fold_step (trigger_ctrl e3 (hd _ _ _ _ _ _) (hcc _ _ _ _ _ _) k1) (fold_nil _ _ _))
  refine ⟨r', [.exec x false] ++ [.emit d x id o1 ⟨m.time, v⟩] ++ [.recv (some (x, o1)) 2 cp true ⟨m.time, v⟩] ++ g', ?_, fun p => ?_⟩
  · rw [hr', List.set_set]
    simp only [List.append_assoc]
  · rw [emittedBy_append, k2]
    simp [emittedBy, hx2]

/-- A filter that passes a message on to two Constants. -/
theorem pass_fire {l : List (Op V)} {d f x y F : Nat} {g : List (Ev V)} {s s1 s2 t t1 t2 u u1 u2 s' s1' s2' : V} {D C1 C2 E E1 E2 U U1 U2 D' C1' C2' : List (Msg V)} {out : OpMsg V}
    {idF idx idy : Str} {fo : FilterOp} {w vx vy : V} {iF ix iy : Inp V} {m : Msg V} {cx cy : Str}
    (hne : x ≠ 2 ∧ y ≠ 2 ∧ F ≠ 2 ∧ x ≠ y ∧ F ≠ x ∧ F ≠ y) (hF : l[F]? = some (qop idF [(o1, [⟨x, i1⟩, ⟨y, i1⟩])] (.filter fo w) [i1] iF)) (hiF : Got m iF) (hev : fo.eval m.value w = true)
    (hx : l[x]? = some (qop idx [(o1, [⟨2, cx⟩])] (.constant vx) [] ix)) (hix : One ix) (hy : l[y]? = some (qop idy [(o1, [⟨2, cy⟩])] (.constant vy) [] iy)) (hiy : One iy)
    (h2 : l[2]? = some (dm s s1 s2 D C1 C2)) (hcx : cx = c1 ∨ cx = c2) (hcy : cy = c1 ∨ cy = c2)
    (hrx : (dm s s1 s2 D C1 C2).recvCtrl ⟨m.time, vx⟩ cx = .ok (dm t t1 t2 E E1 E2)) (hxx : (dm t t1 t2 E E1 E2).execCtrl = .ok [] (dm t t1 t2 E E1 E2))
    (hry : (dm t t1 t2 E E1 E2).recvCtrl ⟨m.time, vy⟩ cy = .ok (dm u u1 u2 U U1 U2)) (hxy : (dm u u1 u2 U U1 U2).execCtrl = .ok out (dm s' s1' s2' D' C1' C2'))
    (ho : out = [] ∨ ∃ m, out = [(o1, [m])] ∨ out = [(o2, [m])]) :
    ∃ r g' jx jy, Got m jx ∧ Got m jy ∧ exec (f + 3) false F (at_ l d g) = .ok r (at_ ((((l.set F (qop idF [(o1, [⟨x, i1⟩, ⟨y, i1⟩])] (.filter fo w) [] iF)).set x
      (qop idx [(o1, [⟨2, cx⟩])] (.constant vx) [] jx)).set y (qop idy [(o1, [⟨2, cy⟩])] (.constant vy) [] jy)).set 2 (dm s' s1' s2' D' C1' C2')) d (g ++ g')) ∧
      ∀ p, emittedBy 2 p g' = pick p out := by
  obtain ⟨n1, n2, n3, n4, n5, n6⟩ := hne
  have ltF : F < l.length := (List.getElem?_eq_some_iff.1 hF).1
  have ltx : x < l.length := (List.getElem?_eq_some_iff.1 hx).1
  have lty : y < l.length := (List.getElem?_eq_some_iff.1 hy).1
  have lt2 : 2 < l.length := (List.getElem?_eq_some_iff.1 h2).1
  obtain ⟨jx, gx, kx⟩ := q_recv (id := idx) (w := [(o1, [⟨2, cx⟩])]) (base_constant vx) hix m
  obtain ⟨jy, gy, ky⟩ := q_recv (id := idy) (w := [(o1, [⟨2, cy⟩])]) (base_constant vy) hiy m
  let l1 := l.set F (qop idF [(o1, [⟨x, i1⟩, ⟨y, i1⟩])] (.filter fo w) [] iF)
  let l2 := l1.set x (qop idx [(o1, [⟨2, cx⟩])] (.constant vx) [i1] jx)
  let l3 := l2.set y (qop idy [(o1, [⟨2, cy⟩])] (.constant vy) [i1] jy)
  let l4 := (l3.set x (qop idx [(o1, [⟨2, cx⟩])] (.constant vx) [] jx)).set 2 (dm t t1 t2 E E1 E2)
  have a1 : l1[x]? = some (qop idx [(o1, [⟨2, cx⟩])] (.constant vx) [] ix) := by rw [List.getElem?_set_ne n5]; exact hx
  have a2 : l2[y]? = some (qop idy [(o1, [⟨2, cy⟩])] (.constant vy) [] iy) := by rw [List.getElem?_set_ne n4, List.getElem?_set_ne n6]; exact hy
  have a3 : l3[x]? = some (qop idx [(o1, [⟨2, cx⟩])] (.constant vx) [i1] jx) := by
    rw [List.getElem?_set_ne (Ne.symm n4), List.getElem?_set_self (by simpa [l1] using ltx)]
  have a4 : l3[2]? = some (dm s s1 s2 D C1 C2) := by rw [List.getElem?_set_ne n2, List.getElem?_set_ne n1, List.getElem?_set_ne n3]; exact h2
  have a5 : l4[y]? = some (qop idy [(o1, [⟨2, cy⟩])] (.constant vy) [i1] jy) := by
    rw [List.getElem?_set_ne (Ne.symm n2), List.getElem?_set_ne n4, List.getElem?_set_self (by simpa [l1, l2] using lty)]
  have a6 : l4[2]? = some (dm t t1 t2 E E1 E2) := by rw [List.getElem?_set_self (by simpa [l1, l2, l3] using lt2)]
  let g1 := g ++ [.exec F false] ++ [.emit d F idF o1 m] ++ [.recv (some (F, o1)) x i1 false m] ++ [.recv (some (F, o1)) y i1 false m]
  obtain ⟨r1, h1, p1, p2⟩ := const_fire (f := f) (d := d) (g := g1) n1 a3 kx a4 hcx hrx hxx (Or.inl rfl)
  obtain ⟨r2, h2', p3, p4⟩ := const_fire (f := f) (d := d) (g := g1 ++ h1) n2 a5 ky a6 hcy hry hxy ho
  obtain ⟨r', hr'⟩ := exec_one (ctrl := false) (d := d) (f := f + 2) (g := g) (cs := [⟨x, i1⟩, ⟨y, i1⟩]) (m := m) (p := o1) hF ((base_filter fo w).2.2 _)
    (by rw [if_neg (by simp), exec_filter hiF, if_pos hev]; rfl) (by rfl) (by rfl)
    (fold_step (deliver_data a1 ((base_constant vx).2.2 _) (by rfl) gx) (fold_step (deliver_data a2 ((base_constant vy).2.2 _) (by rfl) gy) (fold_nil _ _ _)))
    (fold_step (trigger_data (l := l3) a3 (by rfl) p1) (fold_step (trigger_data (l := l4) a5 (by rfl) p3) (fold_nil _ _ _)))
  refine ⟨r', [.exec F false] ++ [.emit d F idF o1 m] ++ [.recv (some (F, o1)) x i1 false m] ++ [.recv (some (F, o1)) y i1 false m] ++ h1 ++ h2', jx, jy, kx, ky, ?_, fun p => ?_⟩
  · rw [hr']
    congr 2
    · simp only [l1, l2, l3, l4]
      rw [List.set_comm _ _ (Ne.symm n4), List.set_set, List.set_comm _ _ (Ne.symm n2), List.set_set, List.set_set]
    · simp only [g1, List.append_assoc]
  · rw [emittedBy_append, emittedBy_append, p2, p4]
    simp [emittedBy, n3, pick]

/-- A filter that does not pass the message on. -/
theorem stop_fire {l : List (Op V)} {d f F : Nat} {g : List (Ev V)} {idF : Str} {cs : Map (List Conn)} {fo : FilterOp} {w : V} {iF : Inp V} {m : Msg V}
    (hF : l[F]? = some (qop idF cs (.filter fo w) [i1] iF)) (hiF : Got m iF) (hev : fo.eval m.value w = false) :
    exec (f + 1) false F (at_ l d g) = .ok [] (at_ (l.set F (qop idF cs (.filter fo w) [] iF)) d (g ++ [.exec F false])) :=
  exec_quiet hF ((base_filter fo w).2.2 _) (by rw [if_neg (by simp), exec_filter hiF, if_neg (by simp [hev])])

/-! ### One message -/

def inOp (last : Option (Msg V)) (tp : List Str) (i : Inp V) : Op V := qop b!"in" [(o1, [⟨2, i1⟩, ⟨1, i1⟩])] (.input [(i1, o1)] (sentMap last)) tp i
def countOp (n : UInt64) (tp : List Str) (i : Inp V) : Op V := qop b!"count" [(o1, [⟨3, i1⟩, ⟨4, i1⟩, ⟨5, i1⟩])] (.count n) tp i
def ltOp (tp : List Str) (i : Inp V) : Op V := qop b!"lt" [(o1, [⟨7, i1⟩, ⟨6, i1⟩])] (.filter .lessThan (Num.ofNat 20)) tp i
def gtOp (tp : List Str) (i : Inp V) : Op V := qop b!"gt" [(o1, [⟨11, i1⟩, ⟨10, i1⟩])] (.filter .greaterThan (Num.ofNat 20)) tp i
def etOp (tp : List Str) (i : Inp V) : Op V := qop b!"et" [(o1, [⟨8, i1⟩, ⟨9, i1⟩])] (.filter .equalTo (Num.ofNat 20)) tp i
def outOp : Op V := match Op.newOutput b!"out" 2 with | .ok o => o | .error _ => Op.newIdentity []

/-- The operators, by address: `last` message sent by the Input, `n` messages counted, the sums of the Demultiplexer, the buffers. -/
def ops (last : Option (Msg V)) (n : UInt64) (s s1 s2 : V) (b : Nat → Inp V) : List (Op V) := [inOp last [] (b 0), countOp n [] (b 1), dm s s1 s2 [] [] [], ltOp [] (b 3), gtOp [] (b 4), etOp [] (b 5),
  qop b!"clt20z" [(o1, [⟨2, c2⟩])] (.constant (Num.ofNat 0)) [] (b 6), qop b!"clt20o" [(o1, [⟨2, c1⟩])] (.constant (Num.ofNat 1)) [] (b 7),
  qop b!"cet20z" [(o1, [⟨2, c1⟩])] (.constant (Num.ofNat 0)) [] (b 8), qop b!"cet20o" [(o1, [⟨2, c2⟩])] (.constant (Num.ofNat 1)) [] (b 9),
  qop b!"cgt20z" [(o1, [⟨2, c1⟩])] (.constant (Num.ofNat 0)) [] (b 10), qop b!"cgt20o" [(o1, [⟨2, c2⟩])] (.constant (Num.ofNat 1)) [] (b 11), outOp]

/-- The operators while the filters have yet to execute. -/
def mid (I C D : Op V) (p3 p4 p5 : List Str) (b : Nat → Inp V) : List (Op V) := [I, C, D, ltOp p3 (b 3), gtOp p4 (b 4), etOp p5 (b 5),
  qop b!"clt20z" [(o1, [⟨2, c2⟩])] (.constant (Num.ofNat 0)) [] (b 6), qop b!"clt20o" [(o1, [⟨2, c1⟩])] (.constant (Num.ofNat 1)) [] (b 7),
  qop b!"cet20z" [(o1, [⟨2, c1⟩])] (.constant (Num.ofNat 0)) [] (b 8), qop b!"cet20o" [(o1, [⟨2, c2⟩])] (.constant (Num.ofNat 1)) [] (b 9),
  qop b!"cgt20z" [(o1, [⟨2, c1⟩])] (.constant (Num.ofNat 0)) [] (b 10), qop b!"cgt20o" [(o1, [⟨2, c2⟩])] (.constant (Num.ofNat 1)) [] (b 11), outOp]

/-- Replace one buffer. -/
def upd (b : Nat → Inp V) (a : Nat) (i : Inp V) : Nat → Inp V := fun x => if x = a then i else b x

omit [Num V] in
theorem upd_one {b : Nat → Inp V} (h : ∀ a, One (b a)) (x : Nat) {i : Inp V} (hi : One i) : ∀ a, One (upd b x i a) := by
  intro a
  unfold upd
  split
  · exact hi
  · exact h a

variable {B : Nat}

theorem bit0 (hT : Tells V B) (hB : 20 ≤ B) : Bit (Num.ofNat 0 : V) := by
  have h00 : Num.eq (Num.ofNat 0 : V) (Num.ofNat 0) = true := by simpa using (hT 0 0 (by omega) (by omega)).2
  simp [Bit, h00]

theorem bit1 (hT : Tells V B) (hB : 20 ≤ B) : Bit (Num.ofNat 1 : V) := by
  have h11 : Num.eq (Num.ofNat 1 : V) (Num.ofNat 1) = true := by simpa using (hT 1 1 (by omega) (by omega)).2
  simp [Bit, h11]

/-- The three filters execute on the count `k`. -/
theorem filters_fire (hT : Tells V B) (hB : 20 ≤ B) {k : Nat} (hk : k ≤ B) {last : Option (Msg V)} {n : UInt64} {s s1 s2 : V} {b : Nat → Inp V} {m : Msg V} (hb : ∀ a, One (b a))
    (h3 : Got ⟨m.time, Num.ofNat k⟩ (b 3)) (h4 : Got ⟨m.time, Num.ofNat k⟩ (b 4)) (h5 : Got ⟨m.time, Num.ofNat k⟩ (b 5)) {d f : Nat} {g : List (Ev V)} (acc : ProgMsg V) :
    ∃ r G s' s1' s2' b', M.fold (trigger (exec (f + 3))) [⟨3, i1⟩, ⟨4, i1⟩, ⟨5, i1⟩] acc (at_ (mid (inOp last [] (b 0)) (countOp n [] (b 1)) (dm s s1 s2 [m] [] []) [i1] [i1] [i1] b) d g) =
      .ok r (at_ (ops last n s' s1' s2' b') d G) ∧ (∀ a, One (b' a)) ∧ ∃ g', G = g ++ g' ∧ ∀ p, emittedBy 2 p g' = pick p [(if k < 20 then o1 else o2, [m])] := by
  have hlt : FilterOp.lessThan.eval (Num.ofNat k : V) (Num.ofNat 20) = decide (k < 20) := (hT k 20 hk hB).1
  have hgt : FilterOp.greaterThan.eval (Num.ofNat k : V) (Num.ofNat 20) = decide (20 < k) := (hT 20 k hB hk).1
  have het : FilterOp.equalTo.eval (Num.ofNat k : V) (Num.ofNat 20) = decide (k = 20) := (hT k 20 hk hB).2
  rcases Nat.lt_trichotomy k 20 with h | h | h
  · obtain ⟨t, t1, t2, hgo⟩ := dm_first hT (by omega) s (s1 +. Num.ofNat 1) (s2 +. Num.ofNat 0) m
    obtain ⟨r, g', jx, jy, k1, k2, k3, k4⟩ := pass_fire (f := f) (d := d) (g := g) (F := 3) (x := 7) (y := 6) (l := mid (inOp last [] (b 0)) (countOp n [] (b 1)) (dm s s1 s2 [m] [] []) [i1] [i1] [i1] b) (by decide) rfl h3
      (by rw [hlt]; simpa using h) rfl (hb 7) rfl (hb 6) rfl (Or.inl rfl) (Or.inr rfl) (dm_ctrl1 _ _ _ _ _ _) (dm_wait1 _ _ _ _ (bit1 hT hB)) (dm_ctrl2 _ _ _ _ _ _) hgo (Or.inr ⟨m, Or.inl rfl⟩)
    have e4 := stop_fire (f := f + 2) (d := d) (g := g ++ g') (F := 4) (l := mid (inOp last [] (b 0)) (countOp n [] (b 1)) (dm t t1 t2 [] [] []) [] [i1] [i1] (upd (upd b 7 jx) 6 jy)) rfl h4 (by rw [hgt]; simp; omega)
    have e5 := stop_fire (f := f + 2) (d := d) (g := g ++ g' ++ [.exec 4 false]) (F := 5) (l := mid (inOp last [] (b 0)) (countOp n [] (b 1)) (dm t t1 t2 [] [] []) [] [] [i1] (upd (upd b 7 jx) 6 jy)) rfl h5 (by rw [het]; simp; omega)
    refine ⟨_, _, t, t1, t2, upd (upd b 7 jx) 6 jy,
      fold_step (trigger_data rfl (by rfl) k3) (fold_step (trigger_data rfl (by rfl) e4) (fold_step (trigger_data rfl (by rfl) e5) (fold_nil _ _ _))), upd_one (upd_one hb _ k1.one) _ k2.one, g' ++ [.exec 4 false] ++ [.exec 5 false], by simp only [List.append_assoc], fun p => ?_⟩
    · rw [emittedBy_append, emittedBy_append, k4, if_pos h]
      simp [emittedBy]
  · obtain ⟨t, t1, t2, hgo⟩ := dm_second hT (by omega) s (s1 +. Num.ofNat 0) (s2 +. Num.ofNat 1) m
    have e3 := stop_fire (f := f + 2) (d := d) (g := g) (F := 3) (l := mid (inOp last [] (b 0)) (countOp n [] (b 1)) (dm s s1 s2 [m] [] []) [i1] [i1] [i1] b) rfl h3 (by rw [hlt]; simp; omega)
    have e4 := stop_fire (f := f + 2) (d := d) (g := g ++ [.exec 3 false]) (F := 4) (l := mid (inOp last [] (b 0)) (countOp n [] (b 1)) (dm s s1 s2 [m] [] []) [] [i1] [i1] b) rfl h4 (by rw [hgt]; simp; omega)
    obtain ⟨r, g', jx, jy, k1, k2, k3, k4⟩ := pass_fire (f := f) (d := d) (g := g ++ [.exec 3 false] ++ [.exec 4 false]) (F := 5) (x := 8) (y := 9) (l := mid (inOp last [] (b 0)) (countOp n [] (b 1)) (dm s s1 s2 [m] [] []) [] [] [i1] b)
      (by decide) rfl h5 (by rw [het]; simpa using h) rfl (hb 8) rfl (hb 9) rfl (Or.inl rfl) (Or.inr rfl) (dm_ctrl1 _ _ _ _ _ _) (dm_wait1 _ _ _ _ (bit0 hT hB)) (dm_ctrl2 _ _ _ _ _ _) hgo
      (Or.inr ⟨m, Or.inr rfl⟩)
    refine ⟨_, _, t, t1, t2, upd (upd b 8 jx) 9 jy,
      fold_step (trigger_data rfl (by rfl) e3) (fold_step (trigger_data rfl (by rfl) e4) (fold_step (trigger_data rfl (by rfl) k3) (fold_nil _ _ _))), upd_one (upd_one hb _ k1.one) _ k2.one, [.exec 3 false] ++ [.exec 4 false] ++ g', by simp only [List.append_assoc], fun p => ?_⟩
    · rw [emittedBy_append, k4, if_neg (by omega)]
      simp [emittedBy]
  · obtain ⟨t, t1, t2, hgo⟩ := dm_second hT (by omega) s (s1 +. Num.ofNat 0) (s2 +. Num.ofNat 1) m
    have e3 := stop_fire (f := f + 2) (d := d) (g := g) (F := 3) (l := mid (inOp last [] (b 0)) (countOp n [] (b 1)) (dm s s1 s2 [m] [] []) [i1] [i1] [i1] b) rfl h3 (by rw [hlt]; simp; omega)
    obtain ⟨r, g', jx, jy, k1, k2, k3, k4⟩ := pass_fire (f := f) (d := d) (g := g ++ [.exec 3 false]) (F := 4) (x := 11) (y := 10) (l := mid (inOp last [] (b 0)) (countOp n [] (b 1)) (dm s s1 s2 [m] [] []) [] [i1] [i1] b)
      (by decide) rfl h4 (by rw [hgt]; simpa using h) rfl (hb 11) rfl (hb 10) rfl (Or.inr rfl) (Or.inl rfl) (dm_ctrl2 _ _ _ _ _ _) (dm_wait2 _ _ _ _ (bit1 hT hB)) (dm_ctrl1 _ _ _ _ _ _) hgo
      (Or.inr ⟨m, Or.inr rfl⟩)
    have e5 := stop_fire (f := f + 2) (d := d) (g := g ++ [.exec 3 false] ++ g') (F := 5) (l := mid (inOp last [] (b 0)) (countOp n [] (b 1)) (dm t t1 t2 [] [] []) [] [] [i1] (upd (upd b 11 jx) 10 jy)) rfl h5 (by rw [het]; simp; omega)
    refine ⟨_, _, t, t1, t2, upd (upd b 11 jx) 10 jy,
      fold_step (trigger_data rfl (by rfl) e3) (fold_step (trigger_data rfl (by rfl) k3) (fold_step (trigger_data rfl (by rfl) e5) (fold_nil _ _ _))), upd_one (upd_one hb _ k1.one) _ k2.one, [.exec 3 false] ++ g' ++ [.exec 5 false], by simp only [List.append_assoc], fun p => ?_⟩
    · rw [emittedBy_append, emittedBy_append, k4, if_neg (by omega)]
      simp [emittedBy]

/-- The Count executes. -/
theorem count_fire (hT : Tells V B) (hB : 20 ≤ B) {k : Nat} (hk : k + 1 ≤ B) (hk64 : k + 1 < 2 ^ 64) {last : Option (Msg V)} {s s1 s2 : V} {b : Nat → Inp V} {m : Msg V} (hb : ∀ a, One (b a))
    (h1 : Got m (b 1)) {d f : Nat} {g : List (Ev V)} :
    ∃ r G s' s1' s2' b', exec (f + 4) false 1 (at_ (mid (inOp last [] (b 0)) (countOp (UInt64.ofNat k) [i1] (b 1)) (dm s s1 s2 [m] [] []) [] [] [] b) d g) =
      .ok r (at_ (ops last (UInt64.ofNat (k + 1)) s' s1' s2' b') d G) ∧ (∀ a, One (b' a)) ∧ ∃ g', G = g ++ g' ∧ ∀ p, emittedBy 2 p g' = pick p [(if k + 1 < 20 then o1 else o2, [m])] := by
  have hcnt : UInt64.ofNat k + 1 = UInt64.ofNat (k + 1) := by
    rw [show (1 : UInt64) = UInt64.ofNat 1 from rfl, ← UInt64.ofNat_add]
  have hval : (ofTime (UInt64.ofNat k + 1) : V) = Num.ofNat (k + 1) := by
    unfold ofTime
    rw [hcnt, UInt64.toNat_ofNat', Nat.mod_eq_of_lt hk64]
  obtain ⟨c, hc⟩ : ∃ c, c = UInt64.ofNat (k + 1) := ⟨_, rfl⟩
  obtain ⟨m', hm'⟩ : ∃ m' : Msg V, m' = ⟨m.time, Num.ofNat (k + 1)⟩ := ⟨_, rfl⟩
  have hxc : (countOp (UInt64.ofNat k) [i1] (b 1)).execData = .ok [(o1, [m'])] (countOp c [] (b 1)) := by
    have := exec_count (id := b!"count") (w := [(o1, [⟨3, i1⟩, ⟨4, i1⟩, ⟨5, i1⟩])]) (n := UInt64.ofNat k) h1
    rw [hval, hcnt] at this
    rw [hm', hc]
    exact this
  obtain ⟨j3, q3, w3⟩ := q_recv (id := b!"lt") (w := [(o1, [⟨7, i1⟩, ⟨6, i1⟩])]) (base_filter .lessThan (Num.ofNat 20)) (hb 3) m'
  obtain ⟨j4, q4, w4⟩ := q_recv (id := b!"gt") (w := [(o1, [⟨11, i1⟩, ⟨10, i1⟩])]) (base_filter .greaterThan (Num.ofNat 20)) (hb 4) m'
  obtain ⟨j5, q5, w5⟩ := q_recv (id := b!"et") (w := [(o1, [⟨8, i1⟩, ⟨9, i1⟩])]) (base_filter .equalTo (Num.ofNat 20)) (hb 5) m'
  obtain ⟨b5, e5⟩ : ∃ b5, b5 = upd (upd (upd b 3 j3) 4 j4) 5 j5 := ⟨_, rfl⟩
  have hb5 : ∀ a, One (b5 a) := by rw [e5]; exact upd_one (upd_one (upd_one hb _ w3.one) _ w4.one) _ w5.one
  have v0 : b5 0 = b 0 := by rw [e5]; rfl
  have v1 : b5 1 = b 1 := by rw [e5]; rfl
  have v3 : b5 3 = j3 := by rw [e5]; rfl
  have v4 : b5 4 = j4 := by rw [e5]; rfl
  have v5 : b5 5 = j5 := by rw [e5]; rfl
  obtain ⟨r, G, t, t1, t2, b', k1, k2, g', k3, k4⟩ := filters_fire hT hB hk (last := last) (n := c) (s := s) (s1 := s1) (s2 := s2) (b := b5) (m := m) hb5 (by rw [v3, ← hm']; exact w3)
    (by rw [v4, ← hm']; exact w4) (by rw [v5, ← hm']; exact w5) (d := d) (f := f)
    (g := g ++ [.exec 1 false] ++ [.emit d 1 b!"count" o1 m'] ++ [.recv (some (1, o1)) 3 i1 false m'] ++ [.recv (some (1, o1)) 4 i1 false m'] ++ [.recv (some (1, o1)) 5 i1 false m'])
    [(b!"count", [(o1, [m'])])]
  have hl : mid (inOp last [] (b5 0)) (countOp c [] (b5 1)) (dm s s1 s2 [m] [] []) [i1] [i1] [i1] b5 =
      ((((mid (inOp last [] (b 0)) (countOp (UInt64.ofNat k) [i1] (b 1)) (dm s s1 s2 [m] [] []) [] [] [] b).set 1 (countOp c [] (b 1))).set 3 (ltOp [i1] j3)).set 4 (gtOp [i1] j4)).set 5 (etOp [i1] j5) := by
    rw [e5]
    rfl
  rw [hl] at k1
  obtain ⟨r1, x1⟩ := exec_one (ctrl := false) (a := 1) (d := d) (f := f + 3) (g := g) (cs := [⟨3, i1⟩, ⟨4, i1⟩, ⟨5, i1⟩]) (m := m') (p := o1)
    (l := mid (inOp last [] (b 0)) (countOp (UInt64.ofNat k) [i1] (b 1)) (dm s s1 s2 [m] [] []) [] [] [] b) rfl ((base_count _).2.2 _) hxc (by rfl) (by rfl)
    (fold_step (deliver_data (b := 3) (by rfl) ((base_filter _ _).2.2 _) (by rfl) q3) (fold_step (deliver_data (b := 4) (by rfl) ((base_filter _ _).2.2 _) (by rfl) q4)
      (fold_step (deliver_data (b := 5) (by rfl) ((base_filter _ _).2.2 _) (by rfl) q5) (fold_nil _ _ _)))) k1
  refine ⟨r1, G, t, t1, t2, b', by rw [← hc]; exact x1, k2, [.exec 1 false] ++ [.emit d 1 b!"count" o1 m'] ++ [.recv (some (1, o1)) 3 i1 false m'] ++ [.recv (some (1, o1)) 4 i1 false m'] ++
    [.recv (some (1, o1)) 5 i1 false m'] ++ g', ?_, fun p => ?_⟩
  · rw [k3]
    simp only [List.append_assoc]
  · rw [emittedBy_append, k4]
    simp [emittedBy]

/-- One message given to the program. -/
theorem feed_one (hT : Tells V B) (hB : 20 ≤ B) {k : Nat} (hk : k + 1 ≤ B) (hk64 : k + 1 < 2 ^ 64) {last : Option (Msg V)} {s s1 s2 : V} {b : Nat → Inp V} (hb : ∀ a, One (b a)) (m : Msg V) {d f : Nat}
    {g : List (Ev V)} (hn : newer (last.map (·.time)) m.time = true) :
    ∃ r g' s' s1' s2' b', feed (f + 5) 0 i1 m (at_ (ops last (UInt64.ofNat k) s s1 s2 b) d g) = .ok r (at_ (ops (some m) (UInt64.ofNat (k + 1)) s' s1' s2' b') d (g ++ g')) ∧ (∀ a, One (b' a)) ∧
      ∀ p, emittedBy 2 p g' = pick p [(if k + 1 < 20 then o1 else o2, [m])] := by
  obtain ⟨j0, q0, w0⟩ := q_recv (id := b!"in") (w := [(o1, [⟨2, i1⟩, ⟨1, i1⟩])]) (base_input [(i1, o1)] (sentMap last)) (hb 0) m
  obtain ⟨j1, q1, w1⟩ := q_recv (id := b!"count") (w := [(o1, [⟨3, i1⟩, ⟨4, i1⟩, ⟨5, i1⟩])]) (base_count (UInt64.ofNat k)) (hb 1) m
  obtain ⟨b1, e1⟩ : ∃ b1, b1 = upd (upd b 0 j0) 1 j1 := ⟨_, rfl⟩
  have hb1 : ∀ a, One (b1 a) := by rw [e1]; exact upd_one (upd_one hb _ w0.one) _ w1.one
  have v1 : b1 1 = j1 := by rw [e1]; rfl
  have hxi : (inOp last [i1] j0).execData = .ok [(o1, [m])] (inOp (some m) [] j0) := by
    have := exec_input (id := b!"in") (w := [(o1, [⟨2, i1⟩, ⟨1, i1⟩])]) (l := last) w0
    rw [if_pos hn] at this
    exact this
  obtain ⟨L0, hL0⟩ : ∃ L, L = (ops last (UInt64.ofNat k) s s1 s2 b).set 0 (inOp last [i1] j0) := ⟨_, rfl⟩
  obtain ⟨L1, hL1⟩ : ∃ L, L = L0.set 0 (inOp (some m) [] j0) := ⟨_, rfl⟩
  obtain ⟨L2, hL2⟩ : ∃ L, L = L1.set 2 (dm (s +. m.value) s1 s2 [m] [] []) := ⟨_, rfl⟩
  obtain ⟨L3, hL3⟩ : ∃ L, L = L2.set 1 (countOp (UInt64.ofNat k) [i1] j1) := ⟨_, rfl⟩
  have hl : L3 = mid (inOp (some m) [] (b1 0)) (countOp (UInt64.ofNat k) [i1] (b1 1)) (dm (s +. m.value) s1 s2 [m] [] []) [] [] [] b1 := by
    rw [hL3, hL2, hL1, hL0, e1]
    rfl
  have u0 : L0[0]? = some (inOp last [i1] j0) := by rw [hL0]; rfl
  have u1 : L1[2]? = some (dm s s1 s2 [] [] []) := by rw [hL1, hL0]; rfl
  have u2 : L2[1]? = some (countOp (UInt64.ofNat k) [] (b 1)) := by rw [hL2, hL1, hL0]; rfl
  have u3 : L3[2]? = some (dm (s +. m.value) s1 s2 [m] [] []) := by rw [hl]; rfl
  have u4 : L3[1]? = some (countOp (UInt64.ofNat k) [i1] j1) := by rw [hl, v1]; rfl
  have u5 : L3.set 2 (dm (s +. m.value) s1 s2 [m] [] []) = L3 := by rw [hl]; rfl
  obtain ⟨g1, hg1⟩ : ∃ g1 : List (Ev V), g1 = g ++ [.recv none 0 i1 false m] ++ [.exec 0 false] ++ [.emit d 0 b!"in" o1 m] ++ [.recv (some (0, o1)) 2 i1 false m] ++ [.recv (some (0, o1)) 1 i1 false m] := ⟨_, rfl⟩
  have x2 := exec_quiet (f := f + 3) (d := d) (g := g1) (ctrl := false) u3 (dm_own _ _ _ _ _ _) (dm_wait0 _ s1 s2 m)
  rw [u5] at x2
  obtain ⟨r1, G, t, t1, t2, b', k1, k2, g', k3, k4⟩ := count_fire hT hB hk hk64 (last := some m) (s := s +. m.value) (s1 := s1) (s2 := s2) (b := b1) (m := m) hb1 (by rw [v1]; exact w1) (d := d) (f := f)
    (g := g1 ++ [.exec 2 false])
  rw [← hl] at k1
  have D1 : M.fold (deliver (f + 4) (0, o1) m) [⟨2, i1⟩, ⟨1, i1⟩] () (at_ L1 d (g ++ [.recv none 0 i1 false m] ++ [.exec 0 false] ++ [.emit d 0 b!"in" o1 m])) = .ok () (at_ L3 d g1) := by
    refine fold_step (deliver_data u1 (dm_own _ _ _ _ _ _) (by rfl) (dm_data s s1 s2 m)) ?_
    rw [← hL2]
    refine fold_step (deliver_data u2 ((base_count _).2.2 _) (by rfl) q1) ?_
    rw [hg1, hL3]
    rfl
  have D2 := fold_step (trigger_data (out := [(b!"in", [(o1, [m])])]) (q := i1) u3 (by rfl) x2) (fold_step (trigger_data (q := i1) u4 (by rfl) k1) (fold_nil (trigger (exec (f + 4))) _ _))
  obtain ⟨r0, x0⟩ := exec_one (ctrl := false) (d := d) (f := f + 4) (g := g ++ [.recv none 0 i1 false m]) (cs := [⟨2, i1⟩, ⟨1, i1⟩]) (m := m) (p := o1) u0 ((base_input _ _).2.2 _) hxi (by rfl) (by rfl)
    (by rw [← hL1]; exact D1) D2
  have xr := recvData_at (f := f + 4) (d := d) (g := g) (frm := none) (a := 0) (l := ops last (UInt64.ofNat k) s s1 s2 b) rfl ((base_input _ _).2.2 _) q0
  have xr' : recvData (f + 5) none 0 m i1 (at_ (ops last (UInt64.ofNat k) s s1 s2 b) d g) = .ok () (at_ L0 d (g ++ [.recv none 0 i1 false m])) := by rw [hL0]; exact xr
  refine ⟨r0, [.recv none 0 i1 false m] ++ [.exec 0 false] ++ [.emit d 0 b!"in" o1 m] ++ [.recv (some (0, o1)) 2 i1 false m] ++ [.recv (some (0, o1)) 1 i1 false m] ++ [.exec 2 false] ++ g',
    t, t1, t2, b', ?_, k2, fun p => ?_⟩
  · unfold feed
    rw [M.bind_def, xr']
    dsimp only
    rw [x0, k3, hg1]
    simp only [List.append_assoc]
  · rw [emittedBy_append, k4]
    simp [emittedBy]

/-- A message that the Input does not pass on. -/
theorem feed_none {last : Option (Msg V)} {n : UInt64} {s s1 s2 : V} {b : Nat → Inp V} (hb : ∀ a, One (b a)) (m : Msg V) {d f : Nat}
    {g : List (Ev V)} (hn : newer (last.map (·.time)) m.time = false) :
    ∃ r g' b', feed (f + 5) 0 i1 m (at_ (ops last n s s1 s2 b) d g) = .ok r (at_ (ops last n s s1 s2 b') d (g ++ g')) ∧ (∀ a, One (b' a)) ∧ ∀ p, emittedBy 2 p g' = [] := by
  obtain ⟨j0, q0, w0⟩ := q_recv (id := b!"in") (w := [(o1, [⟨2, i1⟩, ⟨1, i1⟩])]) (base_input [(i1, o1)] (sentMap last)) (hb 0) m
  have hxi : (inOp last [i1] j0).execData = .ok [] (inOp last [] j0) := by
    have := exec_input (id := b!"in") (w := [(o1, [⟨2, i1⟩, ⟨1, i1⟩])]) (l := last) w0
    rw [if_neg (by simp [hn])] at this
    exact this
  have x0 := exec_quiet (f := f + 4) (d := d) (g := g ++ [.recv none 0 i1 false m]) (ctrl := false) (a := 0) (l := (ops last n s s1 s2 b).set 0 (inOp last [i1] j0)) rfl ((base_input _ _).2.2 _) hxi
  have xr := recvData_at (f := f + 4) (d := d) (g := g) (frm := none) (a := 0) (l := ops last n s s1 s2 b) rfl ((base_input _ _).2.2 _) q0
  refine ⟨[], [.recv none 0 i1 false m] ++ [.exec 0 false], upd b 0 j0, ?_, upd_one hb _ w0.one, fun p => by simp [emittedBy]⟩
  unfold feed
  rw [M.bind_def, xr]
  refine x0.trans ?_
  rw [List.append_assoc]
  rfl

end Rtbot.Selector
