/-!
# Sorting

Go's `slices.SortFunc` / `sort.Slice` are *not* stable and their algorithm is unspecified.  The model
therefore never fixes a sorting algorithm: a `Sorter cmp` is *any* function that returns a permutation
of its argument which is ordered by the comparator.  All theorems quantify over every sorter.
-/
namespace Tsgolint

/-- Models `slices.SortFunc(x, cmp)` (standard library; used in
/repo/internal/linter/source_code_fixer.go:22,35 and /repo/cmd/tsgolint/headless.go:319) and `sort.Slice`
(/repo/internal/linter/timing.go:62): any function returning an ordered permutation.  `cmp a b ≤ 0` means
`a` may precede `b`. -/
structure Sorter {α : Type u} (cmp : α → α → Int) where
  sort : List α → List α
  perm : ∀ l, (sort l).Perm l
  sorted : ∀ l, (sort l).Pairwise (fun a b => cmp a b ≤ 0)

/-- A comparator that orders by an integer-lexicographic key is total and transitive; merge sort is then a
`Sorter`.  Used to show that sorters exist (non-vacuity), never in the model itself. -/
def Sorter.ofMergeSort {α : Type u} (cmp : α → α → Int)
    (trans : ∀ a b c, cmp a b ≤ 0 → cmp b c ≤ 0 → cmp a c ≤ 0)
    (total : ∀ a b, cmp a b ≤ 0 ∨ cmp b a ≤ 0) : Sorter cmp where
  sort l := l.mergeSort (fun a b => decide (cmp a b ≤ 0))
  perm l := List.mergeSort_perm l _
  sorted l := by
    have h := List.pairwise_mergeSort (le := fun a b => decide (cmp a b ≤ 0))
      (by intro a b c h1 h2; simp at *; exact trans a b c h1 h2)
      (by intro a b; simpa using total a b) l
    exact h.imp (by intro a b h; simpa using h)

end Tsgolint
