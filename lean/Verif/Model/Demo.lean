import Verif.Model.Basic

/-!
# Model of `demo.py`, functions `close_polygons`, `edges`, `generate_disk` (vertices), `example_1d_network`

The numpy library functions `ravel`, `sort(axis=1)`, `unique(axis=0)`, `repeat`, `cumsum`, `insert` and `linspace` are
modelled by what they are documented to do. Not modelled are the plotting functions and the triangulation of the points
of `generate_disk`, which is done by matplotlib.
-/

namespace Celltree

/-- `demo.py:11-21` `close_polygons`, for one row: append a fill value and replace every fill value by the first node
(the fill positions of row `i` of `closed.ravel()` receive `first_node[i]`, once per fill position). An empty row
makes `face_node_connectivity[:, 0]` fail. -/
def closePolygon (fill : Int) : List Int → M (List Int)
  | [] => .error .indexError
  | v0 :: rest => .ok (((v0 :: rest) ++ [fill]).map fun v => if v = fill then v0 else v)

/-- `demo.py:33-34`: the sides of one closed row, `zip(closed[:-1], closed[1:])`. -/
def rowSides (closed : List Int) : List (Int × Int) := closed.dropLast.zip closed.tail

/-- `demo.py:41`: sort the two columns of one row. -/
def sortPair (e : Int × Int) : Int × Int := if e.2 < e.1 then (e.2, e.1) else e

/-- Lexicographic order of rows, as used by `np.unique(axis=0)`. -/
def lexLt (a b : Int × Int) : Bool := decide (a.1 < b.1) || (a.1 == b.1 && decide (a.2 < b.2))

/-- Insert in a sorted list without duplicates. -/
def insertUnique (e : Int × Int) : List (Int × Int) → List (Int × Int)
  | [] => [e]
  | x :: xs => if lexLt e x then e :: x :: xs else if e = x then x :: xs else x :: insertUnique e xs

/-- `np.unique(a, axis=0)`: the distinct rows in lexicographic order. -/
def uniqueRows (l : List (Int × Int)) : List (Int × Int) := l.foldr insertUnique []

/-- `demo.py:24-43` `edges`. -/
def demoEdges (faces : List (List Int)) (fill : Int) : M (List (Int × Int)) := do
  let closed ← faces.mapM (closePolygon fill)
  let sides := closed.flatMap rowSides
  let sides := sides.filter fun e => e.1 != e.2
  .ok (uniqueRows (sides.map sortPair))

/-! ## `generate_disk` -/

/-- `np.repeat(values, counts)`. -/
def npRepeat {α : Type} (values : List α) (counts : List Nat) : List α :=
  (values.zip counts).flatMap fun x => List.replicate x.2 x.1

/-- `np.cumsum`, continuing from `acc`. -/
def cumsumFrom {α : Type} [Add α] (acc : α) : List α → List α
  | [] => []
  | x :: xs => (acc + x) :: cumsumFrom (acc + x) xs

section
variable {F : Type} [Add F] [Sub F] [Mul F] [Div F] [Zero F] [One F] [IntCast F]

/-- `np.linspace(0.0, 1.0, n)`: multiples of the step, except for the last value, which is exactly one. -/
def linspace01 (n : Nat) : List F :=
  (List.range n).map fun i =>
    if 1 < n ∧ i + 1 = n then 1
    else if 1 < n then ((i : Int) : F) * (1 / (((n : Int) - 1 : Int) : F))
    else 0

/-- `demo.py:91-123` `generate_disk`, the array of vertices. `n_per_level[0] = 1` fails if there is no level. -/
def generateDiskVertices (pi : F) (cos sin : F → F) (partitions depth : Int) : M (List (Pt F)) :=
  if partitions < 3 then .error .valueError
  else
    let n := (depth + 1).toNat
    match (List.range n).map fun k : Nat => partitions.toNat * k with
    | [] => .error .indexError
    | _ :: rest => do
      let nPerLevel := 1 :: rest
      let deltaAngle := (npRepeat nPerLevel nPerLevel).map fun k : Nat => ((1 + 1) * pi) / ((k : Int) : F)
      let index := npRepeat (0 :: (cumsumFrom 0 nPerLevel).dropLast) nPerLevel
      let angles := cumsumFrom 0 deltaAngle
      let angles ← (angles.zip index).mapM fun (a, i) => do
        let first ← rd angles i
        .ok (a - first + 1 / (1 + 1) * pi)
      let radii := npRepeat (linspace01 n) nPerLevel
      .ok ((angles.zip radii).map fun (a, r) => ⟨cos a * r, sin a * r⟩)

end

/-- `demo.py:126-146` `example_1d_network`, in quarters: the vertices. -/
def example1dVertices : List (Int × Int) :=
  [(0, 0), (1, 4), (5, 8), (6, 10), (10, 13), (10, 10), (11, 15), (12, 8), (1, 7), (2, 9)]

/-- `demo.py:126-146` `example_1d_network`: the edges. -/
def example1dEdges : List (List Int) := [[0, 1], [1, 2], [2, 3], [3, 4], [3, 5], [4, 6], [5, 7], [1, 8], [8, 9]]

end Celltree
