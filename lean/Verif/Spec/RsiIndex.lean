import Verif.Model.Num

/-! # Spec: the relative strength index as examples/data/program-test-5.json reports it

Only lists of messages and the arithmetic of the values; no operators. -/

namespace Rtbot.Spec
variable {V : Type} [Num V]

/-- The changes from each message to the next. -/
def changes : List (Msg V) → List V
  | m :: m' :: l => (m'.value -. m.value) :: changes (m' :: l)
  | _ => []

/-- What a change counts as among the losses: nothing if it is a gain. -/
def lossPart (d : V) : Option V := if Num.lt d (Num.ofNat 0) then some (d *. Num.neg (Num.ofNat 1)) else if Num.eq d (Num.ofNat 0) then some d else none

/-- What a change counts as among the gains: nothing if it is a loss. -/
def gainPart (d : V) : Option V := if Num.lt (Num.ofNat 0) d || Num.eq d (Num.ofNat 0) then some d else none

/-- The total times `b`; 0 if there is nothing. -/
def meanOf (b : V) (l : List V) : V := if l.isEmpty then Num.ofNat 0 else (l.foldl (· +. ·) (Num.ofNat 0)) *. b

/-- The index of the average gain `g` and the average loss `l`: 100 - 100 (g / l + 1)^(-1), nothing if `l` is 0. -/
def indexAt (t : UInt64) (g l : V) : List (Msg V) :=
  if Num.eq l (Num.ofNat 0) then [] else [⟨t, Num.pow ((g /. l) +. Num.ofNat 1) (Num.neg (Num.ofNat 1)) *. Num.neg (Num.ofNat 100) +. Num.ofNat 100⟩]

/-- The new average of the old one and the next loss or gain. -/
def smoothed (a b old x : V) : V := Num.ofNat 0 +. old *. a +. x *. b

def lossNow (d : V) : V := if Num.lt d (Num.ofNat 0) then d *. Num.neg (Num.ofNat 1) else Num.ofNat 0
def gainNow (d : V) : V := if Num.lt (Num.ofNat 0) d then d else Num.ofNat 0

/-- The reports after the message `p` with the averages `g` and `l`: as long as each message comes exactly one unit of time after the one before. -/
def follow (a b : V) (p : Msg V) (g l : V) : List (Msg V) → List (Msg V)
  | [] => []
  | m :: ms =>
    if m.time = p.time + 1 then
      indexAt m.time (smoothed a b g (gainNow (m.value -. p.value))) (smoothed a b l (lossNow (m.value -. p.value))) ++
        follow a b m (smoothed a b g (gainNow (m.value -. p.value))) (smoothed a b l (lossNow (m.value -. p.value))) ms
    else []

/-- The reports from the 15th message `m` on, where `ds` are the 14 changes up to it. The report for the 15th message itself comes with the 16th, unless its change is 0. -/
def indexFrom (a b : V) (ds : List V) (m : Msg V) : List (Msg V) → List (Msg V)
  | [] => if ds.getLast?.any fun d => Num.eq d (Num.ofNat 0) then indexAt m.time (meanOf b (ds.filterMap gainPart)) (meanOf b (ds.filterMap lossPart)) else []
  | rest => indexAt m.time (meanOf b (ds.filterMap gainPart)) (meanOf b (ds.filterMap lossPart)) ++ follow a b m (meanOf b (ds.filterMap gainPart)) (meanOf b (ds.filterMap lossPart)) rest

/-- All reports for the messages. -/
def rsi (a b : V) (ms : List (Msg V)) : List (Msg V) :=
  match ms.drop 14 with
  | [] => []
  | m :: rest => indexFrom a b (changes (ms.take 15)) m rest

/-- The comparisons place the change. -/
def Placed (d : V) : Prop :=
  (Num.lt d (Num.ofNat 0), Num.eq d (Num.ofNat 0), Num.lt (Num.ofNat 0) d) ∈ [(true, false, false), (false, true, false), (false, false, true)]

end Rtbot.Spec
