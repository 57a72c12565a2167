import Verif.Lemmas.Map
import Verif.Model.Process

/-! # What calls on one operator cannot change

`Op.fresh o` is `o` with all run time state reset: empty buffers, zero sums, initial subclass members. Every method preserves it,
i.e. ids, ports, capacities, connections and parameters never change. -/

namespace Rtbot
variable {V : Type} [Num V]

/-- An empty buffer of the same name and capacity. -/
def Inp.fresh (i : Inp V) : Inp V := { i with sum := Num.ofNat 0, data := [] }

/-- Parameters of an operator with the initial values of the dynamic members. -/
def Kind.fresh : Kind V → Kind V
  | .input pm _ => .input pm []
  | .count _ => .count 0
  | .cumSum _ => .cumSum (Num.ofNat 0)
  | .variable v _ => .variable v false
  | .constRes dt _ _ _ => .constRes dt 0 false (Num.ofNat 0)
  | .cosRes dt _ => .cosRes dt 0
  | .hermRes dt _ _ => .hermRes dt 0 none
  | .rsi _ => .rsi none
  | k => k

/-- Reset a map of buffers. -/
def freshMap (m : Map (Inp V)) : Map (Inp V) := m.map fun e => (e.1, e.2.fresh)

def Core.fresh (c : Core V) : Core V :=
  { c with dataIn := freshMap c.dataIn, ctrlIn := freshMap c.ctrlIn, toProcess := [] }

def Op.fresh (o : Op V) : Op V := ⟨o.core.fresh, o.kind.fresh⟩

theorem bind_eq_ok {ε α β : Type} {x : Except ε α} {f : α → Except ε β} {b : β} :
    (x >>= f) = .ok b ↔ ∃ a, x = .ok a ∧ f a = .ok b := by
  cases x with
  | error e => constructor
               · intro h; cases h
               · rintro ⟨a, h, _⟩; cases h
  | ok a => exact ⟨fun h => ⟨a, rfl, h⟩, fun ⟨a', h, h'⟩ => by cases h; exact h'⟩

/-- Port maps are sorted (always true of objects built by the constructors). -/
structure Core.WF (c : Core V) : Prop where
  data : c.dataIn.Sorted
  ctrl : c.ctrlIn.Sorted

theorem keys_freshMap (m : Map (Inp V)) : (freshMap m).keys = m.keys := by
  simp [freshMap, Map.keys, Function.comp_def]

theorem find?_freshMap (m : Map (Inp V)) (k : Str) : (freshMap m).find? k = (m.find? k).map Inp.fresh := by
  induction m with
  | nil => rfl
  | cons e m ih =>
    obtain ⟨k', i⟩ := e
    simp only [freshMap, List.map_cons, Map.find?_cons] at *
    split <;> simp_all

theorem freshMap_put {m : Map (Inp V)} {k : Str} {i i' : Inp V} (hs : m.Sorted) (hf : m.find? k = some i)
    (hi : i'.fresh = i.fresh) : freshMap (m.put k i') = freshMap m := by
  have hk : k ∈ m.keys := by rw [← Map.find?_isSome_iff, hf]; rfl
  apply Map.Sorted.ext
  · unfold Map.Sorted; rw [keys_freshMap, Map.keys_put_of_mem m i' hs hk]; exact hs
  · unfold Map.Sorted; rw [keys_freshMap]; exact hs
  · intro k'
    rw [find?_freshMap, find?_freshMap, Map.find?_put]
    split
    · subst_vars; simp [hf, hi]
    · rfl

theorem Core.WF.of_fresh {c c' : Core V} (h : c'.fresh = c.fresh) (hw : c.WF) : c'.WF := by
  have h1 : freshMap c'.dataIn = freshMap c.dataIn := congrArg Core.dataIn h
  have h2 : freshMap c'.ctrlIn = freshMap c.ctrlIn := congrArg Core.ctrlIn h
  constructor
  · unfold Map.Sorted; rw [← keys_freshMap, h1, keys_freshMap]; exact hw.data
  · unfold Map.Sorted; rw [← keys_freshMap, h2, keys_freshMap]; exact hw.ctrl

theorem freshMap_map (m : Map (Inp V)) (f : Str → Inp V → Inp V) (hf : ∀ p i, (f p i).fresh = i.fresh) :
    freshMap (m.map fun e => (e.1, f e.1 e.2)) = freshMap m := by
  simp [freshMap, hf]

@[simp] theorem Inp.fresh_push (i : Inp V) (m : Msg V) : (i.push m).fresh = i.fresh := rfl

theorem Inp.fresh_popSum {i i' : Inp V} (h : i.popSum = some i') : i'.fresh = i.fresh := by
  unfold Inp.popSum at h
  split at h
  · cases h
  · cases h; rfl

theorem Inp.fresh_receive {i i' : Inp V} {m : Msg V} (h : i.receive m = .ok i') : i'.fresh = i.fresh := by
  unfold Inp.receive at h
  split at h
  · split at h
    · cases h
    · rename_i h'
      cases h
      rw [Inp.fresh_push, Inp.fresh_popSum h']
  · split at h
    · cases h
    · cases h; rfl

theorem Inp.fresh_dropOlder (i : Inp V) (t : UInt64) : (i.dropOlder t).fresh = i.fresh := by
  unfold Inp.dropOlder
  generalize i.sum = s
  generalize i.data = d
  induction d generalizing s with
  | nil => rfl
  | cons m ms ih =>
    unfold Inp.dropOlder.go
    split
    · exact ih _
    · rfl

theorem fresh_popAll {m m' : Map (Inp V)} (h : popAll m = .ok m') : freshMap m' = freshMap m := by
  induction m generalizing m' with
  | nil => cases h; rfl
  | cons e m ih =>
    obtain ⟨p, i⟩ := e
    simp only [popAll, bind, Except.bind] at h
    split at h
    · cases h
    · rename_i i' hi
      split at h
      · cases h
      · rename_i r hr
        cases h
        simp only [freshMap, List.map_cons] at ih ⊢
        rw [ih hr, Inp.fresh_popSum hi]

theorem fresh_demuxScan (t : UInt64) (m : Map (Inp V)) : freshMap (demuxScan t m).1 = freshMap m := by
  induction m with
  | nil => rfl
  | cons e m ih =>
    obtain ⟨p, i⟩ := e
    simp only [demuxScan]
    simp only [freshMap] at *
    split
    · simp [ih, Inp.fresh_dropOlder]
    · split
      · simp [ih, Inp.fresh_dropOlder]
      · simp [Inp.fresh_dropOlder]

theorem receiveDataBase_fresh {c c' : Core V} {m : Msg V} {p : Str} (hw : c.WF) (h : c.receiveDataBase m p = .ok c') :
    c'.fresh = c.fresh := by
  simp only [Core.receiveDataBase, bind, Except.bind] at h
  split at h
  · cases h
  · rename_i i hi
    split at h
    · cases h
    · rename_i i' hi'
      cases h
      simp only [Core.fresh, freshMap_put hw.data hi (Inp.fresh_receive hi')]

theorem receiveCtrlBase_fresh {c c' : Core V} {m : Msg V} {p : Str} (hw : c.WF) (h : c.receiveCtrlBase m p = .ok c') :
    c'.fresh = c.fresh := by
  simp only [Core.receiveCtrlBase, bind, Except.bind] at h
  split at h
  · cases h
  · rename_i i hi
    split at h
    · cases h
    · rename_i i' hi'
      cases h
      simp only [Core.fresh, freshMap_put hw.ctrl hi (Inp.fresh_receive hi')]

theorem recvData_fresh {o o' : Op V} {m : Msg V} {p : Str} (hw : o.core.WF) (h : o.recvData m p = .ok o') :
    o'.fresh = o.fresh := by
  unfold Op.recvData at h
  split at h
  all_goals
    obtain ⟨c', hc, h⟩ := bind_eq_ok.1 h
    cases h
    suffices c'.fresh = o.core.fresh by simp only [Op.fresh, this]
    first
      | exact receiveDataBase_fresh hw hc
      | (simp only [Core.receiveDataJoin] at hc
         split at hc
         · cases hc
         · split at hc
           · cases hc
           · rename_i i hi
             cases hc
             simp only [Core.fresh, freshMap_put hw.data hi (Inp.fresh_push _ _)])
      | (simp only [Core.receiveDataDemux] at hc
         split at hc
         · cases hc
         · rename_i i hi
           cases hc
           simp only [Core.fresh, freshMap_put hw.data hi (Inp.fresh_push _ _)])
      | (simp only [Core.receiveDataAR] at hc
         split at hc
         · cases hc
         · rename_i i hi
           split at hc
           · cases hc
           · cases hc
             simp only [Core.fresh]
             rw [freshMap_put hw.data hi]
             rfl)

theorem recvCtrl_fresh {o o' : Op V} {m : Msg V} {p : Str} (hw : o.core.WF) (h : o.recvCtrl m p = .ok o') :
    o'.fresh = o.fresh := by
  unfold Op.recvCtrl at h
  split at h
  all_goals
    obtain ⟨c', hc, h⟩ := bind_eq_ok.1 h
    cases h
    suffices c'.fresh = o.core.fresh by simp only [Op.fresh, this]
    first
      | exact receiveCtrlBase_fresh hw hc
      | (simp only [Core.receiveCtrlDemux] at hc
         split at hc
         · cases hc
         · rename_i i hi
           cases hc
           simp only [Core.fresh, freshMap_put hw.ctrl hi (Inp.fresh_push _ _)])

/-- `processData` does not change parameters. -/
theorem process_fresh {o : Op V} {out : OpMsg V} {k : Kind V} (h : o.process = .ok (out, k)) : k.fresh = o.kind.fresh := by
  obtain ⟨c, k0⟩ := o
  cases k0 <;>
    simp only [Op.process, procInput, procOutput, procFilter, procLast, procIdentity, procCount, procCumSum, procDifference,
      procMovAvg, procStdDev, procPeak, procFir, procConstRes, procCosRes, procHermRes, procFunction, procRsi,
      bind, Except.bind] at h
  all_goals (try (repeat' split at h))
  all_goals (try (cases h; rfl))
  all_goals simp_all

theorem execBase_fresh (o : Op V) : o.execBase.state.fresh = o.fresh := by
  unfold Op.execBase
  split
  · rfl
  · dsimp only
    split
    · rfl
    · split
      · rfl
      · rename_i hp
        have := process_fresh hp
        simp only [Res.state, Op.fresh, this]
        rfl

theorem execJoin_fresh (o : Op V) : o.execJoin.state.fresh = o.fresh := by
  unfold Op.execJoin
  split
  · rfl
  · split
    · rfl
    · split
      · rfl
      · rename_i ref t _
        dsimp only
        have hd : freshMap (o.core.dataIn.map fun x => (x.1, if x.1 = ref then x.2 else x.2.dropOlder t)) = freshMap o.core.dataIn :=
          freshMap_map _ (fun p i => if p = ref then i else i.dropOlder t) (by
            intro p i; split
            · rfl
            · exact Inp.fresh_dropOlder _ _)
        split
        · split
          · simp only [Res.state, Op.fresh, Core.fresh, hd]
          · split
            · simp only [Res.state, Op.fresh, Core.fresh, hd]
            · rename_i hp
              simp only [Res.state, Op.fresh, Core.fresh, fresh_popAll hp, hd]
        · simp only [Res.state, Op.fresh, Core.fresh, hd]

theorem execDemux_fresh (o : Op V) (cm : Map Str) : (o.execDemux cm).state.fresh = o.fresh := by
  unfold Op.execDemux
  split
  · rename_i p i hd
    split
    · rfl
    · rename_i m ms _
      have hs := fresh_demuxScan m.time o.core.ctrlIn
      dsimp only
      split
      · simp only [Res.state, Op.fresh, Core.fresh, hs]
      · split
        · split
          · simp only [Res.state, Op.fresh, Core.fresh, hs]
          · split
            · simp only [Res.state, Op.fresh, Core.fresh, hs]
            · rename_i hp
              simp only [Res.state, Op.fresh, Core.fresh, fresh_popAll hp, hs, hd]
              rfl
        · simp only [Res.state, Op.fresh, Core.fresh, hs]
  · rfl

theorem execAR_fresh (o : Op V) (coeff : List V) : (o.execAR coeff).state.fresh = o.fresh := by
  unfold Op.execAR
  split
  · rename_i p i hd
    split
    · rfl
    · split
      · rfl
      · split
        · rfl
        · simp only [Res.state, Op.fresh, Core.fresh, hd]
          rfl
  · rfl

theorem execVariable_fresh (o : Op V) (v : V) (ini : Bool) (hk : o.kind = .variable v ini) :
    (o.execVariable v ini).state.fresh = o.fresh := by
  unfold Op.execVariable
  split
  · rename_i p i cp ci hd hc
    split
    · rfl
    · rfl
    · dsimp only
      split
      · split
        · rfl
        · simp only [Res.state, Op.fresh, Core.fresh, hd, hc, hk]; rfl
      · split
        · simp only [Res.state, Op.fresh, Core.fresh, hd, hc, hk]; rfl
        · split
          · simp only [Res.state, Op.fresh, Core.fresh, hd, hc, hk]; rfl
          · simp only [Res.state, Op.fresh, Core.fresh, hd, hk]; rfl
  · rfl

/-- `executeData` preserves ids, ports, capacities, connections and parameters, also when it fails. -/
theorem execData_fresh (o : Op V) : o.execData.state.fresh = o.fresh := by
  unfold Op.execData
  split
  · exact execJoin_fresh o
  · exact execJoin_fresh o
  · exact execJoin_fresh o
  · exact execDemux_fresh o _
  · exact execAR_fresh o _
  · rename_i hk; exact execVariable_fresh o _ _ hk
  · exact execBase_fresh o

theorem execCtrl_fresh (o : Op V) : o.execCtrl.state.fresh = o.fresh := by
  unfold Op.execCtrl
  split
  · exact execDemux_fresh o _
  · rename_i hk; exact execVariable_fresh o _ _ hk
  · rfl

end Rtbot
