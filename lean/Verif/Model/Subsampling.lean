import Verif.Base
import Verif.Num

/-!
# Model of `Subsampling`
-/

set_option autoImplicit false

namespace Gbdt

/-- `DivideSamplesHelper` (`subsampling.cc:53-64`).  With no group the remainder is undefined; a negative count becomes a
`uint` of at least 2^31, which the `int` loop counter cannot reach, which is undefined too.  The number of samples is
taken to be non-negative. -/
def groupSizes (numSamples : Nat) (numGroups : Int) : Outcome (List Nat) :=
  if numGroups ≤ 0 then .ub
  else
    let k := numGroups.toNat
    let left := numSamples % k
    .ok ((List.replicate k (numSamples / k)).mapIdx (fun i s => if i < left then s + 1 else s))

/-- The loop of the first `DivideSamples` (`subsampling.cc:70-73`). -/
def slicesFrom : Nat → List Nat → List (Nat × Nat)
  | _, [] => []
  | start, size :: sizes => (start, start + size) :: slicesFrom (start + size) sizes

/-- `DivideSamples(int, int)` (`subsampling.cc:66-75`). -/
def divideRange (numSamples : Nat) (numGroups : Int) : Outcome (List (Nat × Nat)) := do
  let sizes ← groupSizes numSamples numGroups
  pure (slicesFrom 0 sizes)

/-- The loop of the second `DivideSamples` (`subsampling.cc:84-87`); a slice is shown as the elements it spans.  Only
slices within the vector arise. -/
def cutFrom {α : Type} : List α → List Nat → List (List α)
  | _, [] => []
  | rest, size :: sizes => rest.take size :: cutFrom (rest.drop size) sizes

/-- `DivideSamples(VectorSlice<uint>, int)` (`subsampling.cc:77-89`). -/
def divideSamples {α : Type} (samples : List α) (numGroups : Int) : Outcome (List (List α)) := do
  let sizes ← groupSizes samples.length numGroups
  pure (cutFrom samples sizes)

/-- The loop of `UniformSubsample` (`subsampling.cc:37-41`): `draw p` is the `p`-th number drawn from the generator
through `uniform_01_`; `p` is the position of the generator. -/
def subsampleLoop {D : Type} [Dbl D] (draw : Nat → D) (rate : D) : Nat → Nat → Nat → List Nat → List Nat × Nat
  | 0, _, p, samples => (samples, p)
  | fuel + 1, i, p, samples =>
    subsampleLoop draw rate fuel (i + 1) (p + 1) (if Dbl.ltb (draw p) rate then samples ++ [i] else samples)

/-- `UniformSubsample` (`subsampling.cc:34-43`): the samples and the new position of the generator.  `toInt` is the
conversion of a double to `int`, undefined (`none`) for NaN and for numbers out of range; its value only serves to
reserve memory. -/
def uniformSubsample {D : Type} [Dbl D] (toInt : D → Option Int) (ofNat : Nat → D) (draw : Nat → D) (n : Nat) (rate : D)
    (p : Nat) : Outcome (List Nat × Nat) :=
  match toInt (rate * ofNat n) with
  | none => .ub
  | some _ => .ok (subsampleLoop draw rate n 0 p [])

/-- `CreateAllSamples` (`subsampling.cc:45-51`). -/
def createAllSamples (n : Nat) : List Nat := (List.replicate n 0).mapIdx (fun i _ => i)

end Gbdt
