import Verif.Props.FloatCross

/-!
# C109: `EdgeCellTree2d.intersect_edges` and the smallest edges

The denominator of the crossing is compared with a multiple of the squared length of the query. For edges of length 2^-500 this
multiple is rounded to zero, and nothing prevents a division by zero.
-/

namespace Celltree

namespace Ex

/-- A network with an edge of ordinary size, and a very short one. -/
def tinyVerts : List (Pt Fl) :=
  [Fl.rndPt (3602879701896397 / 2 ^ 553) (6176365203250967 / 2 ^ 555), Fl.rndPt (4278419646001971 / 2 ^ 551) (7334433678860521 / 2 ^ 553),
    Fl.rndPt 3 2]

def tinyQuery : Pt Fl × Pt Fl :=
  (Fl.rndPt (1 / 2 ^ 500) (7720456504063707 / 2 ^ 554), Fl.rndPt (3152519739159347 / 2 ^ 551) (2702159776422297 / 2 ^ 552))

end Ex

set_option synthInstance.maxSize 1000 in
/-- **C109** is violated: a network of two edges, and a query for which `intersect_edges` raises a `ZeroDivisionError`. -/
theorem Fl.C109_division_by_zero : ∃ t : CellTree Fl, ValidEdges Ex.tinyVerts.length ⟨2, [[0, 1], [1, 2]]⟩ ∧
    EdgeCellTree.init Fl.env Ex.tinyVerts ⟨2, [[0, 1], [1, 2]]⟩ 4 2 = .ok t ∧
    t.intersectEdgesOnEdge Fl.env [Ex.tinyQuery] 1 [0] = .error .zeroDiv := by
  obtain ⟨t, h1, h2⟩ := bind_eq_ok.1 (show (EdgeCellTree.init Fl.env Ex.tinyVerts ⟨2, [[0, 1], [1, 2]]⟩ 4 2 >>= fun t =>
    Except.ok (Ex.errOf (t.intersectEdgesOnEdge Fl.env [Ex.tinyQuery] 1 [0]))) = .ok (some .zeroDiv) by decide +kernel)
  refine ⟨t, ?_, h1, Ex.eq_error_of_errOf (Except.ok.inj h2)⟩
  intro r hr
  simp only [List.mem_cons, List.not_mem_nil, or_false] at hr
  rcases hr with rfl | rfl <;> exact ⟨_, _, rfl, by decide⟩

end Celltree
