import Verif.Model.Examples

/-!
# Specification: what the example program examples/Vector.c prints and asks for

Written from the comments of the program and the documentation of the vector functions.
-/

namespace Zy.Spec

/-- What `PerformBasicTests` prints: the capacity after each of twenty pushes of 0 to 19, then the elements
after 5 to 9 were replaced by one element and the element at index 10 was changed, then size and capacity. -/
def basicLines (cap : Nat → Nat) (final : Nat) : List Line :=
  (List.range 20).map (fun i => .pushed i (cap i)) ++ [.elements] ++
    [0, 1, 2, 3, 4, 12345678, 10, 11, 12, 13, 87654321, 15, 16, 17, 18, 19].mapIdx (fun i v => .element i v) ++
    [.info, .size 16, .capacity final]

/-- What `PerformBinarySearchTest` prints for the sorted values. -/
def searchLines (values : List Nat) : List Line := .elements :: values.mapIdx fun i v => .element i v

/-- Everything that the program prints, for the sorted values of the two binary-search tests. -/
def programLines (l₁ l₂ : List Nat) : List Line :=
  basicLines (fun i => if i < 10 then 10 else 22) 22 ++ searchLines l₁ ++
    (basicLines (fun _ => 20) 20 ++ searchLines l₂) ++ [.info, .size 0, .capacity 60]

/-- The requests to the allocators in the three test functions. The first asks for ten elements, twice the
eleven that are needed, gives back all but one when the vector is cleared, and reserves twenty. The third
asks for five elements and then for ten times the six that are needed. -/
def programRequests : List (List (Event TestStruct)) :=
  [[.alloc 0 0 24 10, .realloc 0 0 1 24 22, .realloc 0 1 2 24 1, .realloc 0 2 3 24 20, .dealloc 0 3 24 20],
   [], [.alloc 1 0 24 5, .realloc 1 0 1 24 60, .dealloc 1 1 24 60]]

/-- `l` holds the numbers `rand k % 100`, ..., `rand (k + n - 1) % 100` in ascending order. -/
def SortedDraw (rand : Nat → Nat) (k n : Nat) (l : List Nat) : Prop :=
  l.Pairwise (· ≤ ·) ∧ l.Perm ((List.range n).map fun i => rand (k + i) % 100)

end Zy.Spec
