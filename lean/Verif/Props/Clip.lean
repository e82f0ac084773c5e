import Verif.Proofs.LiangBarsky
import Verif.Spec.Examples
import Verif.Model.Api
import Verif.Proofs.Core

/-!
# Clipping a segment to a box: C37, C38, C53
-/

set_option linter.unusedSectionVars false

namespace Celltree

section
variable {K : Type} [Field K] [LinearOrder K] [IsStrictOrderedRing K]

/-- **C37**: in exact arithmetic Cohen-Sutherland ends within four rounds (the fuel of `cohenSutherland`), does not raise,
and returns the piece of the segment that is in the closed box: nothing exactly if that piece has no length, and otherwise
its end points in the direction of the segment. -/
theorem C37_cohen_sutherland (a b : Pt K) (box : Box K) (hx : box.xmin ≤ box.xmax) (hy : box.ymin ≤ box.ymax) :
    ∃ r, cohenSutherland a b box = .ok r ∧ (a = b → r = none) ∧ (a ≠ b → ClipSpec a b (InBox box) r) :=
  cohenSutherland_spec ⟨hx, hy⟩ a b

/-- **C37**: a hit is reported exactly if two different points of the segment are in the closed box. -/
theorem C37_hit_iff (a b : Pt K) (box : Box K) (hx : box.xmin ≤ box.xmax) (hy : box.ymin ≤ box.ymax) :
    (∃ c d, cohenSutherland a b box = .ok (some (c, d))) ↔
      ∃ u v, 0 ≤ u ∧ u < v ∧ v ≤ 1 ∧ InBox box (lineAt a b u) ∧ InBox box (lineAt a b v) ∧ a ≠ b := by
  obtain ⟨r, h1, h2, h3⟩ := C37_cohen_sutherland a b box hx hy
  rw [h1]
  match r with
  | none =>
    constructor
    · rintro ⟨c, d, h⟩; cases h
    · rintro ⟨u, v, h0, huv, hv, hu, hv', hab⟩
      exact (h3 hab u v h0 huv hv hu hv').elim
  | some (c, d) =>
    refine ⟨fun _ => ?_, fun _ => ⟨c, d, rfl⟩⟩
    have hab : a ≠ b := fun h => by cases h2 h
    obtain ⟨s, t, hs, hst, ht, _, _, hiff⟩ := h3 hab
    exact ⟨s, t, hs, hst, ht, (hiff s hs (by linarith)).2 ⟨le_refl _, hst.le⟩,
      (hiff t (by linarith) ht).2 ⟨hst.le, le_refl _⟩, hab⟩

/-- **C37**: both returned points are in the box and on the segment. -/
theorem C37_result_inside (a b : Pt K) (box : Box K) (hx : box.xmin ≤ box.xmax) (hy : box.ymin ≤ box.ymax) {c d : Pt K}
    (h : cohenSutherland a b box = .ok (some (c, d))) : InBox box c ∧ InBox box d ∧ c ≠ d := by
  obtain ⟨r, h1, h2, h3⟩ := C37_cohen_sutherland a b box hx hy
  rw [h] at h1
  cases h1
  have hab : a ≠ b := fun h => by cases h2 h
  obtain ⟨s, t, hs, hst, ht, hc, hd, hiff⟩ := h3 hab
  refine ⟨?_, ?_, ?_⟩
  · rw [hc]; exact (hiff s hs (by linarith)).2 ⟨le_refl _, hst.le⟩
  · rw [hd]; exact (hiff t (by linarith) ht).2 ⟨hst.le, le_refl _⟩
  · intro e
    rw [hc, hd] at e
    exact hst.ne (lineAt_inj hab e)

/-- **C38**: Liang-Barsky has the same contract, also for an empty box. -/
theorem C38_liang_barsky (a b : Pt K) (box : Box K) :
    ∃ r, liangBarsky a b box = .ok r ∧ (a = b → r = none) ∧ (a ≠ b → ClipSpec a b (InBox box) r) :=
  liangBarsky_spec box a b

/-- **C38**: the two algorithms return the same. -/
theorem C38_same_as_cohen_sutherland (a b : Pt K) (box : Box K) (hx : box.xmin ≤ box.xmax) (hy : box.ymin ≤ box.ymax) :
    liangBarsky a b box = cohenSutherland a b box := by
  obtain ⟨r, h1, h2, h3⟩ := C37_cohen_sutherland a b box hx hy
  obtain ⟨r', h1', h2', h3'⟩ := C38_liang_barsky a b box
  rw [h1, h1']
  congr 1
  by_cases hab : a = b
  · rw [h2 hab, h2' hab]
  · exact (h3' hab).unique (h3 hab)

end

/-- A segment that needs all four rounds. -/
example : cohenSutherland (⟨-2, -6⟩ : Pt ℚ) ⟨6, 10⟩ ⟨0, 4, -3, 8⟩ = .ok (some (⟨0, -2⟩, ⟨4, 6⟩)) := by decide +kernel

/-- Touching a corner is no hit. -/
example : cohenSutherland (⟨-1, 1⟩ : Pt ℚ) ⟨1, -1⟩ ⟨0, 4, 0, 8⟩ = .ok none := by decide +kernel

/-- A segment along a side is a hit. -/
example : liangBarsky (⟨-1, 8⟩ : Pt ℚ) ⟨3, 8⟩ ⟨0, 4, 0, 8⟩ = .ok (some (⟨0, 8⟩, ⟨3, 8⟩)) := by decide +kernel

/-! ## C53: in floating point the loop of Cohen-Sutherland need not end

The diagonal of the square `[0.1, 0.4]²` continued to the origin: `a = (0.4, 0.4)`, `b = (0, 0)`. The corner is missed by
one rounding error in `x`; correcting `x` misses it in `y`, and so on for ever. -/

namespace Hang

def dec (n : Int) : Fl := Fl.rnd (n / 10)

def a : Pt Fl := ⟨dec 4, dec 4⟩
def b : Pt Fl := ⟨dec 0, dec 0⟩
def box : Box Fl := ⟨dec 1, dec 4, dec 1, dec 4⟩
/-- 0.09999999999999998 -/
def low : Fl := dec 4 - (dec 4 - dec 1)
def b1 : Pt Fl := ⟨low, dec 1⟩
def b2 : Pt Fl := ⟨dec 1, low⟩

theorem cut1 : csCut a (b1.x - a.x) (b1.y - a.y) box 1 = .ok b2 := by decide +kernel
theorem cut2 : csCut a (b2.x - a.x) (b2.y - a.y) box 4 = .ok b1 := by decide +kernel
theorem cut0 : csCut a (b.x - a.x) (b.y - a.y) box 5 = .ok b1 := by decide +kernel
theorem clipA : getClip a box = 0 := by decide +kernel
theorem clipB : getClip b box = 5 := by decide +kernel
theorem clip1 : getClip b1 box = 1 := by decide +kernel
theorem clip2 : getClip b2 box = 4 := by decide +kernel
theorem ne0 : ((b.x - a.x == 0) && (b.y - a.y == 0)) = false := by decide +kernel
theorem ne1 : ((b1.x - a.x == 0) && (b1.y - a.y == 0)) = false := by decide +kernel
theorem ne2 : ((b2.x - a.x == 0) && (b2.y - a.y == 0)) = false := by decide +kernel

theorem step1 (fuel : Nat) : csLoop box (fuel + 1) a b1 0 1 (b1.x - a.x) (b1.y - a.y) =
    csLoop box fuel a b2 0 4 (b2.x - a.x) (b2.y - a.y) := by
  conv_lhs => unfold csLoop
  simp [cut1, ok_bind, clip2]
  intro h1 h2
  have := ne2
  simp [h1, h2] at this

theorem step2 (fuel : Nat) : csLoop box (fuel + 1) a b2 0 4 (b2.x - a.x) (b2.y - a.y) =
    csLoop box fuel a b1 0 1 (b1.x - a.x) (b1.y - a.y) := by
  conv_lhs => unfold csLoop
  simp [cut2, ok_bind, clip1]
  intro h1 h2
  have := ne1
  simp [h1, h2] at this

theorem step0 (fuel : Nat) : csLoop box (fuel + 1) a b 0 5 (b.x - a.x) (b.y - a.y) =
    csLoop box fuel a b1 0 1 (b1.x - a.x) (b1.y - a.y) := by
  conv_lhs => unfold csLoop
  simp [cut0, ok_bind, clip1]
  intro h1 h2
  have := ne1
  simp [h1, h2] at this

theorem cycle (fuel : Nat) : csLoop box fuel a b1 0 1 (b1.x - a.x) (b1.y - a.y) = .error .fuel ∧
    csLoop box fuel a b2 0 4 (b2.x - a.x) (b2.y - a.y) = .error .fuel := by
  induction fuel with
  | zero => constructor <;> (unfold csLoop; simp)
  | succ fuel ih =>
    rw [step1, step2]
    exact ⟨ih.2, ih.1⟩

end Hang

/-- **C53** (violated): whatever the number of rounds, the loop of Cohen-Sutherland has not ended for this segment and box
in binary64. -/
theorem C53_clip_never_ends (fuel : Nat) : cohenSutherland Hang.a Hang.b Hang.box fuel = .error .fuel := by
  unfold cohenSutherland
  simp only [Hang.ne0, Bool.false_eq_true, if_false, Hang.clipA, Hang.clipB]
  cases fuel with
  | zero => unfold csLoop; simp
  | succ fuel => rw [Hang.step0]; exact (Hang.cycle fuel).1

/-- Corners of the square. -/
def Hang.corners : List (Pt Fl) :=
  [⟨Hang.dec 1, Hang.dec 1⟩, ⟨Hang.dec 4, Hang.dec 1⟩, ⟨Hang.dec 4, Hang.dec 4⟩, ⟨Hang.dec 1, Hang.dec 4⟩]

/-- **C53** (violated): a mesh of one square, with corners `(0.1, 0.1)` and `(0.4, 0.4)`. Its bounding box is the box above,
so that `intersect_edges` with the edge above does not come past its first step. -/
theorem C53_intersect_edges_never_ends : ∃ t, Makes Fl.env Hang.corners ⟨4, [[0, 1, 2, 3]]⟩ (-1) 4 2 t ∧
    t.data.bbox = Hang.box ∧ t.intersectEdges Fl.env [(Hang.a, Hang.b)] 1 [0] = .error .fuel := by
  obtain ⟨t, h1, h2⟩ := bind_eq_ok.1 (show (CellTree.init Fl.env Hang.corners ⟨4, [[0, 1, 2, 3]]⟩ (-1) 4 2 [0] >>=
    fun t => .ok (decide (t.data.bbox = Hang.box) &&
      decide (Ex.errOf (t.intersectEdges Fl.env [(Hang.a, Hang.b)] 1 [0]) = some .fuel))) = .ok true by decide +kernel)
  have h3 := Except.ok.inj h2
  rw [Bool.and_eq_true, decide_eq_true_eq, decide_eq_true_eq] at h3
  exact ⟨t, ⟨[0], by decide, h1⟩, h3.1, Ex.eq_error_of_errOf h3.2⟩

/-- **C53**, the part that holds: in exact arithmetic the clip ends within four rounds. Missing: floating point, where it
is false. -/
theorem C53_clip_ends_partial {K : Type} [Field K] [LinearOrder K] [IsStrictOrderedRing K] (a b : Pt K) (box : Box K)
    (hx : box.xmin ≤ box.xmax) (hy : box.ymin ≤ box.ymax) : ∃ r, cohenSutherland a b box 4 = .ok r := by
  obtain ⟨r, h, _⟩ := C37_cohen_sutherland a b box hx hy
  exact ⟨r, h⟩

end Celltree
