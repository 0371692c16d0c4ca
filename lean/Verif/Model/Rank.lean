/-!
# Patch-to-rank assignment

Models `compute_rank` and `arg_sort_rows_by_diagonal_max` (/repo/src/lambdapic/core/patch/metis.py
7-61).  `pymetis.part_graph` is an oracle: its answer (one part number per patch) is a parameter.
`np.argsort` (unstable quicksort, ties in any order) is an oracle too: `order0` is the column order it
returns after the `[::-1]`.  Arrays are functions on `Nat`, read only below their length.
-/
namespace Verif.Rank

/-- metis.py 56: the two-element tuple swap `a[i], a[j] = a[j], a[i]` -/
def swapAt {α : Type} (f : Nat → α) (i j : Nat) : Nat → α :=
  fun k => if k = i then f j else if k = j then f i else f k

/-- metis.py 54: `i + arr[i, i:].argmax()`: the first position of the maximum among `i .. i+k` -/
def argmaxFrom (f : Nat → Nat) (i : Nat) : Nat → Nat
  | 0 => i
  | k + 1 => let m := argmaxFrom f i k; if f m < f (i + (k + 1)) then i + (k + 1) else m

/-- metis.py 48-49: `cols_order` and the matrix with its columns permuted -/
structure SortState where
  order : Nat → Nat
  arr : Nat → Nat → Nat

/-- metis.py 50-58: one iteration of the loop over rows -/
def stepCol (n : Nat) (s : SortState) (i : Nat) : SortState :=
  let m := argmaxFrom (s.arr i) i (n - 1 - i)
  ⟨swapAt s.order i m, fun r => swapAt (s.arr r) i m⟩

/-- metis.py 48-58: the state after the first `k` iterations on an `n × n` matrix -/
def sortCols (n : Nat) (matrix : Nat → Nat → Nat) (order0 : Nat → Nat) (k : Nat) : SortState :=
  (List.range k).foldl (stepCol n) ⟨order0, fun r c => matrix r (order0 c)⟩

/-- metis.py 59-61: `rank_map = np.empty(n); rank_map[cols_order] = np.arange(n)`; a cell never
written is `none` -/
def invertOrder (n : Nat) (order : Nat → Nat) : Nat → Option Nat :=
  (List.range n).foldl (fun m k => fun j => if j = order k then some k else m j) (fun _ => none)

/-- metis.py 45-61 -/
def argSortRows (n : Nat) (matrix : Nat → Nat → Nat) (order0 : Nat → Nat) : Nat → Option Nat :=
  invertOrder n (sortCols n matrix order0 n).order

/-- metis.py 26-34: `nsame[i, j]`, the number of patches that were on rank `i` and are in part `j` -/
def nsame (prev metis : List Nat) (i j : Nat) : Nat :=
  ((prev.zip metis).filter fun x => x.1 = i ∧ x.2 = j).length

/-- metis.py 21-24: `rank_prev` defaults to zeros -/
def prevOrZero (npatch : Nat) : Option (List Nat) → List Nat
  | none => List.replicate npatch 0
  | some p => p

/-- metis.py 7-42 `compute_rank`: new rank of each patch (in index order) and the number of patches
per rank; `none` if an uninitialised or out-of-range cell of `rank_map` is read. -/
def computeRank (nrank : Nat) (metis : List Nat) (prev : Option (List Nat)) (order0 : Nat → Nat) :
    Option (List Nat × List Nat) :=
  match metis.mapM (argSortRows nrank (nsame (prevOrZero metis.length prev) metis) order0) with
  | none => none
  | some ranks => some (ranks, (List.range nrank).map fun i => ranks.count i)

end Verif.Rank
