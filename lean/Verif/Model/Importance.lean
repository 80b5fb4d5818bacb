import Verif.Model.Tree

/-!
# Model of `ComputeFeatureImportance`
-/

set_option autoImplicit false

namespace Gbdt

variable {D A : Type} [Dbl D]

/-- `(*feature_importance_map)[name] += gain` (`gbdt_algo/utils.cc:82`): a new entry starts at 0. -/
def addGain (name : String) (gain : D) : List (String × D) → List (String × D)
  | [] => [(name, 0 + gain)]
  | (n, v) :: rest => if n = name then (n, v + gain) :: rest else (n, v) :: addGain name gain rest

/-- `ComputeFeatureImportance` of a node (`gbdt_algo/utils.cc:79-86`).  The map is a list of its entries, in any order. -/
def treeImportance : Tree D A → List (String × D) → List (String × D)
  | .absent, m => m
  | .node score split left right, m =>
    if left.isSet then
      let s := (Tree.node score split left right).splitOf
      treeImportance right (treeImportance left (addGain s.feature s.gain m))
    else m

/-- `ComputeFeatureImportance` (`gbdt_algo/utils.cc:88-108`).  `sort` is what becomes of the entries of the map after they
were copied in the map's order and sorted by decreasing value (see `ImportanceSortSpec`). -/
def featureImportance (sort : List (String × D) → List (String × D)) (forest : List (Tree D A)) : List (String × D) :=
  match sort (forest.foldl (fun m t => treeImportance t m) []) with
  | [] => []
  | (n, v) :: rest => ((n, v) :: rest).map (fun e => (e.1, e.2 / v))

/-- `std::sort` by decreasing value (`gbdt_algo/utils.cc:96-99`): any rearrangement such that no entry comes before one
with a larger value. -/
def ImportanceSortSpec (sort : List (String × D) → List (String × D)) : Prop :=
  ∀ l, (sort l).Perm l ∧ (sort l).Pairwise (fun a b => Dbl.ltb a.2 b.2 = false)

end Gbdt
