import Verif.Num
import Verif.Model.StringColumn
import Mathlib.Data.List.Sort

/-!
# Model of `BucketizedFloatColumn` and `RawFloatColumn`

`A` is the linear order of non-NaN floats, `fmax : A` is `numeric_limits<float>::max()`.
-/

set_option autoImplicit false

namespace Gbdt

variable {A : Type} [LinearOrder A]

/-- `std::map<float, uint>` as an association list kept in increasing key order
(`column.cc:266`, `column.h:175`). -/
abbrev FMap (A : Type) := List (A × Nat)

/-- `++m[v]` on a `std::map` (`column.cc:269`); a fresh entry starts at 0.
Counts are natural numbers: wrap-around at 2^32 equal values is not modelled. -/
def FMap.inc (v : A) : FMap A → FMap A
  | [] => [(v, 1)]
  | (k, n) :: m => if v < k then (v, 1) :: (k, n) :: m else if k < v then (k, n) :: FMap.inc v m else (k, n + 1) :: m

/-- `m[v] = x` on a `std::map` (`column.cc:296`). -/
def FMap.set (v : A) (x : Nat) : FMap A → FMap A
  | [] => [(v, x)]
  | (k, n) :: m => if v < k then (v, x) :: (k, n) :: m else if k < v then (k, n) :: FMap.set v x m else (k, x) :: m

/-- `m.lower_bound(v)` (`column.cc:202`): the first entry whose key is not below `v`. -/
def FMap.lowerBound (m : FMap A) (v : A) : Option (A × Nat) := m.find? (fun p => !decide (p.1 < v))

/-- The histogram loop of `BuildBuckets` (`column.cc:266-271`). -/
def histogram (raw : List (Fl A)) : FMap A :=
  raw.foldl (fun h v => match v with
    | .nan => h
    | .num a => h.inc a) []

/-- The loop of `UniformBinning` and the push after it (`column.cc:36-50`). `upper` starts as NaN. -/
def uniformBinningLoop (cap : Nat) : FMap A → Nat → Fl A → List (Fl A) → List (Fl A)
  | [], run, upper, acc => if run > 0 then acc ++ [upper] else acc
  | (k, n) :: m, run, _, acc =>
    if run + n ≥ cap then uniformBinningLoop cap m 0 (.num k) (acc ++ [.num k])
    else uniformBinningLoop cap m (run + n) (.num k) acc

/-- `UniformBinning` (`column.cc:35-51`): appends to `buckets`. -/
def uniformBinning (h : FMap A) (cap : Nat) (buckets : List (Fl A)) : List (Fl A) :=
  uniformBinningLoop cap h 0 .nan buckets

/-- All elements as numbers, or `none` if some element is NaN. -/
def Fl.nums : List (Fl A) → Option (List A)
  | [] => some []
  | .nan :: _ => none
  | .num a :: l => (Fl.nums l).map (a :: ·)

/-- `sort(bucket_maxs_.begin() + 1, bucket_maxs_.end())` (`column.cc:292`): the first element stays, the rest is
sorted increasingly (the sorted list is unique, so the algorithm does not matter).  Sorting a range containing NaN breaks the comparator's contract, hence `ub`. -/
def sortTail : List (Fl A) → Outcome (List (Fl A))
  | [] => .ub
  | x :: l => match Fl.nums l with
    | none => .ub
    | some as => .ok (x :: (as.insertionSort (· ≤ ·)).map .num)

/-- The loop `bucket_map_[bucket_maxs_[i]] = i` (`column.cc:295-297`), from index `i` on. A NaN key would break
the map's comparator, hence `ub`. -/
def buildMap : List (Fl A) → Nat → FMap A → Outcome (FMap A)
  | [], _, m => .ok m
  | .nan :: _, _, _ => .ub
  | .num a :: l, i, m => buildMap l (i + 1) (m.set a i)

/-- `BucketizedFloatColumn` (`column.h:139-180`). `nb` is `num_buckets_` (taken to be non-negative). -/
structure BktCol (A : Type) where
  status : Code := .ok
  ints : IntCol := {}
  nb : Nat
  buffer : List (Fl A) := []
  bucketMap : FMap A := []
  maxs : List (Fl A) := []
  mins : List (Fl A) := []

namespace BktCol

/-- A new column (`column.cc:184-186`). -/
def new (nb : Nat) : BktCol A := { nb := nb }

/-- `BucketizedFloatColumn::max_int` (`column.h:159-161`). -/
def maxInt (c : BktCol A) : Nat := u32 c.maxs.length

/-- The bucket of a number (`column.cc:202-203`): the first bucket whose maximum is not below it, else the
bucket of the largest key (`rbegin`, undefined on an empty map). -/
def bucketId (m : FMap A) (v : A) : Outcome Nat :=
  match m.getLast? with
  | none => .ub
  | some last => match m.lowerBound v with
    | some p => .ok p.2
    | none => .ok last.2

/-- One iteration of the loop of `AddBucketizedVecHelper` (`column.cc:197-207`): the value pushed to the
column, and the new bucket minima. -/
def placeOne (m : FMap A) (mins : List (Fl A)) : Fl A → Outcome (Nat × List (Fl A))
  | .nan => .ok (0, mins)
  | .num v => do
    let id ← bucketId m v
    let old ← Outcome.vecGet mins id
    pure (id, mins.set id (Fl.min old (.num v)))

/-- The loop of `AddBucketizedVecHelper` (`column.cc:197-207`); `narrow` is the conversion to the column's
integer type made by `push_back`. -/
def placeAll (m : FMap A) (narrow : Nat → Nat) :
    List (Fl A) → List Nat → List (Fl A) → Outcome (List Nat × List (Fl A))
  | [], col, mins => .ok (col, mins)
  | v :: vs, col, mins => do
    let r ← placeOne m mins v
    placeAll m narrow vs (col ++ [narrow r.1]) r.2

/-- `AddBucketizedVecHelper` (`column.cc:191-209`): `rbegin()` is evaluated even when there is no row. -/
def addHelper (m : FMap A) (narrow : Nat → Nat) (raw : List (Fl A)) (col : List Nat) (mins : List (Fl A)) :
    Outcome (List Nat × List (Fl A)) :=
  match m.getLast? with
  | none => .ub
  | some _ => placeAll m narrow raw col mins

/-- `AddBucketizedVec` (`column.cc:211-221`): appends to the vector of the width given by `max_int`. -/
def addBucketizedVec (c : BktCol A) (raw : List (Fl A)) : Outcome (BktCol A) :=
  if c.maxInt ≤ 256 then do
    let r ← addHelper c.bucketMap (· % 256) raw c.ints.col8 c.mins
    pure { c with ints := { c.ints with col8 := r.1 }, mins := r.2 }
  else if c.maxInt ≤ 65536 then do
    let r ← addHelper c.bucketMap (· % 65536) raw c.ints.col16 c.mins
    pure { c with ints := { c.ints with col16 := r.1 }, mins := r.2 }
  else do
    let r ← addHelper c.bucketMap u32 raw c.ints.col32 c.mins
    pure { c with ints := { c.ints with col32 := r.1 }, mins := r.2 }

/-- `bucket_capacity` (`column.cc:272`); dividing by zero buckets is undefined. -/
def capacity (n nb : Nat) : Outcome Nat := if nb = 0 then .ub else .ok (max 1 (n / nb))

/-- The values put in buckets of their own (`column.cc:279-287`), in map order. -/
def heavy (h : FMap A) (cap : Nat) : FMap A := h.filter (fun p => decide (p.2 ≥ cap))

/-- What remains of the histogram after the erasing loop (`column.cc:279-287`). -/
def light (h : FMap A) (cap : Nat) : FMap A := h.filter (fun p => !decide (p.2 ≥ cap))

/-- `left_over` after the loop (`column.cc:276, 282`). -/
def leftOver (n : Nat) (hv : FMap A) : Int := (n : Int) - ((hv.map Prod.snd).sum : Nat)

/-- `left_over_capacity` (`column.cc:289-290`): both operands are converted to `unsigned long`, the divisor is
`num_buckets_ - bucket_maxs_.size()` computed modulo 2^64, and a zero divisor is undefined. -/
def leftOverCapacity (leftOver : Int) (nb size : Nat) : Outcome Nat :=
  if u64 ((nb : Int) - size) = 0 then .ub
  else .ok (max 1 (u64 leftOver / u64 ((nb : Int) - size)))

/-- `BuildBuckets` (`column.cc:257-305`) on an unfinalized column with OK status. -/
def buildBuckets (fmax : A) (c : BktCol A) : Outcome (BktCol A) := do
  let h := histogram c.buffer
  let cap ← capacity c.buffer.length c.nb
  let hv := heavy h cap
  let maxs0 := Fl.nan :: hv.map (fun p => Fl.num p.1)
  let lcap ← leftOverCapacity (leftOver c.buffer.length hv) c.nb maxs0.length
  let maxs1 := uniformBinning (light h cap) lcap maxs0
  let maxs2 ← sortTail maxs1
  let maxs := maxs2 ++ [Fl.num fmax]
  let m ← buildMap maxs.tail 1 []
  let c1 : BktCol A := { c with maxs := maxs, mins := maxs, bucketMap := m }
  let c2 ← addBucketizedVec c1 c.buffer
  pure { c2 with buffer := [] }

/-- `BucketizedFloatColumn::Add` (`column.cc:223-241`). -/
def add (fmax : A) (c : BktCol A) (raw : List (Fl A)) : Outcome (BktCol A) :=
  if c.status ≠ .ok then .ok c
  else if c.ints.finalized then .ok { c with status := .failedPrecondition }
  else if c.maxs.length = 0 then
    let c1 := { c with buffer := c.buffer ++ raw }
    if c1.buffer.length > 100 * c1.nb then buildBuckets fmax c1 else .ok c1
  else addBucketizedVec c raw

/-- `BucketizedFloatColumn::Finalize` (`column.cc:243-255`). -/
def finalize (fmax : A) (c : BktCol A) : Outcome (BktCol A) :=
  if c.status ≠ .ok then .ok c
  else if c.ints.finalized then .ok { c with status := .failedPrecondition }
  else do
    let c1 ← if c.maxs.length = 0 then buildBuckets fmax c else pure c
    pure { c1 with bucketMap := [], ints := c1.ints.finalize }

/-- `IntegerizedColumn::size` (`column.cc:135-137`). -/
def size (c : BktCol A) : Outcome Nat := c.ints.size

/-- `get_bucket_max` (`column.h:150-152`). -/
def bucketMax (c : BktCol A) (k : Nat) : Outcome (Fl A) := Outcome.vecGet c.maxs k

/-- `get_bucket_min` (`column.h:153-155`). -/
def bucketMin (c : BktCol A) (k : Nat) : Outcome (Fl A) := Outcome.vecGet c.mins k

/-- `get_row_max` (`column.h:144-146`). -/
def rowMax (c : BktCol A) (i : Nat) : Outcome (Fl A) := do
  let k ← c.ints.code i
  c.bucketMax k

/-- `get_row_min` (`column.h:147-149`). -/
def rowMin (c : BktCol A) (i : Nat) : Outcome (Fl A) := do
  let k ← c.ints.code i
  c.bucketMin k

/-- Feeding blocks one by one (`tsv_data_store.cc:101-116`). -/
def adds (fmax : A) : BktCol A → List (List (Fl A)) → Outcome (BktCol A)
  | c, [] => .ok c
  | c, b :: bs => do
    let c1 ← c.add fmax b
    adds fmax c1 bs

/-- Feeding blocks and finalizing, as `Column::CreateBucketizedFloatColumn` (`column.cc:315-321`, one block) and
the TSV loader (`tsv_data_store.cc:101-132`) do. -/
def build (fmax : A) (nb : Nat) (blocks : List (List (Fl A))) : Outcome (BktCol A) := do
  let c ← adds fmax (new nb) blocks
  c.finalize fmax

end BktCol

/-- `RawFloatColumn` (`column.h:183-198`). -/
structure RawCol (A : Type) where
  status : Code := .ok
  raw : List (Fl A) := []

/-- `RawFloatColumn::Add` (`column.cc:335-339`). -/
def RawCol.add (c : RawCol A) (b : List (Fl A)) : RawCol A :=
  if c.status ≠ .ok then c else { c with raw := c.raw ++ b }

/-- `RawFloatColumn::Finalize` (`column.cc:341-344`): only releases spare memory. -/
def RawCol.finalize (c : RawCol A) : RawCol A := c

/-- `RawFloatColumn::size` (`column.h:189-191`). -/
def RawCol.size (c : RawCol A) : Nat := u32 c.raw.length

/-- `RawFloatColumn::operator[]` (`column.h:186-188`). -/
def RawCol.get (c : RawCol A) (i : Nat) : Outcome (Fl A) := Outcome.vecGet c.raw i

end Gbdt
