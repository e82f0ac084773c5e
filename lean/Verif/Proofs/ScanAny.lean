import Verif.Proofs.CyrusBeck

/-!
# Cyrus-Beck in any arithmetic

The scan finds no side or two sides that the line crosses, whatever the rounding errors: the first and the last test are
the same computation. So the only exception that the clip can raise is a division by zero, at a side whose ends are on
different sides of the line.
-/

set_option linter.unusedSectionVars false

namespace Celltree

variable {F : Type} [Add F] [Sub F] [Mul F] [Div F] [Neg F] [Zero F] [One F] [IntCast F]
  [LT F] [LE F] [BEq F] [DecidableLT F] [DecidableLE F]

section Scan
variable (a b s : Pt F) (poly : List (Pt F)) (hp : 0 < poly.length)

/-- The computed side of corner `m`. -/
def isNeg (m : Nat) : Bool := decide (cross (toVector a (corner poly hp m)) s < 0)

/-- What the scan can return. -/
def ScanAny : CbScan F → Prop
  | .collinear r => ∃ v ∈ sides poly, r = collinearCase a b v.1 v.2
  | .found k i0 i1 =>
    k = 0 ∨
    (k = 2 ∧ ∃ j0 j1 : Nat, i0 = j0 ∧ i1 = j1 ∧ j0 < poly.length ∧ j1 < poly.length ∧
      isNeg a s poly hp j0 ≠ isNeg a s poly hp (j0 + 1) ∧ isNeg a s poly hp j1 ≠ isNeg a s poly hp (j1 + 1))

/-- The state of the scan at index `i`. -/
def AnyInv (i k : Nat) (i0 i1 : Int) : Prop :=
  (k = 0 ∧ isNeg a s poly hp i = isNeg a s poly hp 0) ∨
  (k = 1 ∧ isNeg a s poly hp i ≠ isNeg a s poly hp 0 ∧ ∃ j0 : Nat, i0 = j0 ∧ j0 < poly.length ∧
    isNeg a s poly hp j0 ≠ isNeg a s poly hp (j0 + 1)) ∨
  (k = 2 ∧ ∃ j0 j1 : Nat, i0 = j0 ∧ i1 = j1 ∧ j0 < poly.length ∧ j1 < poly.length ∧
      isNeg a s poly hp j0 ≠ isNeg a s poly hp (j0 + 1) ∧ isNeg a s poly hp j1 ≠ isNeg a s poly hp (j1 + 1))

theorem cbScan_any (n i k : Nat) (i0 i1 : Int) (hi : i + n = poly.length) (hinv : AnyInv a s poly hp i k i0 i1) :
    ∃ r, cbScan a b s poly n i k i0 i1 (cross (toVector a (corner poly hp i)) s) = .ok r ∧
      ScanAny a b s poly hp r := by
  induction n generalizing i k i0 i1 with
  | zero =>
    refine ⟨_, rfl, ?_⟩
    obtain rfl : i = poly.length := by omega
    have e : isNeg a s poly hp poly.length = isNeg a s poly hp 0 := by unfold isNeg; rw [corner_add]
    rcases hinv with ⟨h0, _⟩ | ⟨_, h, _⟩ | h
    · exact Or.inl h0
    · exact (h e).elim
    · exact Or.inr h
  | succ n ih =>
    unfold cbScan
    by_cases hk : k < 2
    · rw [if_pos hk]
      have hil : i < poly.length := by omega
      rw [rd_corner_lt hp hil, ok_bind, rd_corner hp (i + 1), ok_bind]
      have hneg : ∀ m, decide (cross (toVector a (corner poly hp m)) s < 0) = isNeg a s poly hp m := fun _ => rfl
      simp only [hneg]
      by_cases hc : isNeg a s poly hp i = isNeg a s poly hp (i + 1)
      · have hc' : (isNeg a s poly hp i != isNeg a s poly hp (i + 1)) = false := by simp [hc]
        rw [hc']
        simp only [Bool.false_eq_true, if_false]
        split
        · exact ⟨_, rfl, _, side_corner hp hil, rfl⟩
        · apply ih
          · omega
          · rcases hinv with ⟨h0, h1⟩ | ⟨h0, h1, h2⟩ | ⟨h0, _⟩
            · exact Or.inl ⟨h0, hc ▸ h1⟩
            · exact Or.inr (Or.inl ⟨h0, hc ▸ h1, h2⟩)
            · omega
      · have hc' : (isNeg a s poly hp i != isNeg a s poly hp (i + 1)) = true := by simpa using hc
        rw [hc']
        simp only [if_true]
        by_cases hk0 : k = 0
        · rw [if_pos hk0]
          apply ih
          · omega
          · rcases hinv with ⟨h0, h1⟩ | ⟨h0, _⟩ | ⟨h0, _⟩
            · exact Or.inr (Or.inl ⟨by omega, fun e => hc (h1.trans e.symm), i, rfl, hil, hc⟩)
            · omega
            · omega
        · rw [if_neg hk0]
          apply ih
          · omega
          · rcases hinv with ⟨h0, h1⟩ | ⟨h0, _, j0, h2, h3, h4⟩ | ⟨h0, _⟩
            · omega
            · exact Or.inr (Or.inr ⟨by omega, j0, i, h2, rfl, h3, hil, h4, hc⟩)
            · omega
    · rw [if_neg hk]
      refine ⟨_, rfl, ?_⟩
      rcases hinv with ⟨h0, _⟩ | ⟨h0, _⟩ | h
      · omega
      · omega
      · exact Or.inr h

end Scan

/-- The divisor for the side from `v0` to `v1`. -/
def sideDen (s v0 v1 : Pt F) : F := dot ⟨-(v1.y - v0.y), v1.x - v0.x⟩ s

/-- The clip raises no exception if the point tests do not and no divisor is zero. -/
theorem cyrusBeck_ok {a b : Pt F} {poly : List (Pt F)} (hne : poly ≠ []) {tol : F}
    (ha : ∃ r, pointInPolygonOrOnEdge a poly tol = .ok r) (hb : ∃ r, pointInPolygonOrOnEdge b poly tol = .ok r)
    (hs : ∀ v ∈ sides poly, decide (cross (toVector a v.1) (toVector a b) < 0) ≠
        decide (cross (toVector a v.2) (toVector a b) < 0) → (sideDen (toVector a b) v.1 v.2 == 0) = false) :
    ∃ r, cyrusBeck a b poly tol = .ok r := by
  have hp : 0 < poly.length := List.length_pos_iff.2 hne
  obtain ⟨ba, h1⟩ := ha
  obtain ⟨bb, h2⟩ := hb
  unfold cyrusBeck
  simp only [h1, h2, ok_bind]
  split
  · exact ⟨_, rfl⟩
  · split
    · exact ⟨_, rfl⟩
    · rw [rd_corner_lt hp hp, ok_bind]
      obtain ⟨r, h3, h4⟩ := cbScan_any a b (toVector a b) poly hp poly.length 0 0 (-1) (-1) (by omega)
        (Or.inl ⟨rfl, rfl⟩)
      rw [h3, ok_bind]
      match r, h4 with
      | .collinear r, _ => exact ⟨_, rfl⟩
      | .found k i0 i1, h4 =>
        rcases h4 with rfl | ⟨rfl, j0, j1, rfl, rfl, l0, l1, c0, c1⟩
        · exact ⟨_, rfl⟩
        · have hm : ∀ j : Nat, ((j : Int) + 1) % (poly.length : Int) = (((j + 1) % poly.length : Nat) : Int) := by
            intro j; push_cast; rfl
          have hci : ∀ j, j < poly.length → isNeg a (toVector a b) poly hp j ≠ isNeg a (toVector a b) poly hp (j + 1) →
              ∃ r, computeIntersection a (toVector a b) (corner poly hp j) (corner poly hp (j + 1)) = .ok r := by
            intro j hj hc
            have := hs _ (side_corner hp hj) hc
            unfold sideDen at this
            unfold computeIntersection fdiv
            simp only [this, Bool.false_eq_true, if_false, ok_bind]
            exact ⟨_, rfl⟩
          obtain ⟨⟨e0, t0⟩, g0⟩ := hci j0 l0 c0
          obtain ⟨⟨e1, t1⟩, g1⟩ := hci j1 l1 c1
          simp only [two_ne_zero, if_false]
          unfold cbIntersections
          simp only [hm, rdI_nat]
          rw [rd_corner_lt hp l0, ok_bind, rd_corner hp, ok_bind, rd_corner_lt hp l1, ok_bind, rd_corner hp, ok_bind,
            g0, ok_bind, g1, ok_bind]
          cases e1
          · exact ⟨_, rfl⟩
          · exact ⟨_, rfl⟩

end Celltree
