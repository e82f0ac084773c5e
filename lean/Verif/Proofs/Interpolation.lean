import Verif.Spec.Conforming
import Verif.Props.Weights
import Verif.Props.CyrusBeck
import Verif.Props.AffineAreas

/-!
# Interpolated values on a side
-/

set_option linter.unusedSectionVars false

namespace Celltree

variable {K : Type} [Field K] [LinearOrder K] [IsStrictOrderedRing K]

theorem zip_fst_sum {n : Nat} {row : List K} (h : ∀ w ∈ row.drop n, w = 0) {L : List Int} (hn : L.length = n) :
    ((row.zip L).map fun q => q.1).sum = row.sum := by
  have e : (row.zip L).map (fun q => q.1) = row.take L.length := by
    rw [show (fun q : K × Int => q.1) = Prod.fst from rfl]
    by_cases hl : row.length ≤ L.length
    · rw [List.map_fst_zip hl, List.take_of_length_le hl]
    · rw [List.zip_eq_zip_take_min, List.map_fst_zip (by simp)]
      congr 1
      omega
  rw [e, hn]
  conv_rhs => rw [← List.take_append_drop n row, List.sum_append]
  rw [List.sum_eq_zero h, add_zero]

/-- Weights reproduce affine functions. -/
theorem Interpolates.affine {L : List Int} {P : Int → Pt K} {p : Pt K} {row : List K} (h : Interpolates (L.map P) p row)
    (α β γ : K) :
    ((row.zip L).map fun q => q.1 * (α * (P q.2).x + β * (P q.2).y + γ)).sum = α * p.x + β * p.y + γ := by
  have hx := congrArg Pt.x h.point
  have hy := congrArg Pt.y h.point
  simp only [weighted, List.zip_map_right, List.map_map] at hx hy
  have h1 : ((row.zip L).map fun q => q.1).sum = 1 := (zip_fst_sum (n := L.length) (by simpa using h.pad) rfl).trans h.sum
  rw [← hx, ← hy]
  have key : ∀ l : List (K × Int), (l.map fun q => q.1 * (α * (P q.2).x + β * (P q.2).y + γ)).sum =
      α * (l.map ((fun q : K × Pt K => q.1 * q.2.x) ∘ Prod.map id P)).sum +
      β * (l.map ((fun q : K × Pt K => q.1 * q.2.y) ∘ Prod.map id P)).sum + γ * (l.map fun q => q.1).sum := by
    intro l
    induction l with
    | nil => simp
    | cons a l ih =>
      have e1 : ((fun q : K × Pt K => q.1 * q.2.x) ∘ Prod.map id P) a = a.1 * (P a.2).x := rfl
      have e2 : ((fun q : K × Pt K => q.1 * q.2.y) ∘ Prod.map id P) a = a.1 * (P a.2).y := rfl
      simp only [List.map_cons, List.sum_cons, ih, e1, e2]
      ring
  rw [key, h1, mul_one]

theorem Interpolates.nonneg' {L : List Int} {P : Int → Pt K} {p : Pt K} {row : List K} (h : Interpolates (L.map P) p row)
    {q : K × Int} (hq : q ∈ row.zip L) : 0 ≤ q.1 := h.nonneg _ (List.of_mem_zip hq).1

theorem sum_zero_terms {α : Type} {l : List α} {f : α → K} (h : ∀ x ∈ l, 0 ≤ f x) (hs : (l.map f).sum = 0) : ∀ x ∈ l, f x = 0 := by
  induction l with
  | nil => nofun
  | cons a l ih =>
    have h0 := h a (by simp)
    have h1 : 0 ≤ (l.map f).sum := List.sum_nonneg (by
      intro y hy
      obtain ⟨x, hx, rfl⟩ := List.mem_map.1 hy
      exact h x (List.mem_cons_of_mem _ hx))
    rw [List.map_cons, List.sum_cons] at hs
    intro x hx
    rcases List.mem_cons.1 hx with rfl | hx
    · linarith
    · exact ih (fun x hx => h x (List.mem_cons_of_mem _ hx)) (by linarith) x hx

/-- On a side, the value is interpolated linearly between the ends of the side. -/
theorem Interpolates.on_side {L : List Int} {P : Int → Pt K} {p : Pt K} {row : List K} (h : Interpolates (L.map P) p row)
    (hc : StrictlyConvex (L.map P)) (hinj : ∀ v ∈ L, ∀ w ∈ L, P v = P w → v = w) {v w : Int} (hs : (v, w) ∈ sides L) {u : K}
    (hp : p = lineAt (P v) (P w) u) (f : Int → K) :
    ((row.zip L).map fun q => q.1 * f q.2).sum = (1 - u) * f v + u * f w := by
  have hs' : (P v, P w) ∈ sides (L.map P) := by rw [sides_map]; exact List.mem_map.2 ⟨_, hs, rfl⟩
  obtain ⟨hne, hline⟩ := hc.two_on_line hs'
  obtain ⟨mv, mw⟩ := mem_sides_mem hs
  have hz : ∀ q ∈ row.zip L, q.1 * orient (P v) (P w) (P q.2) = 0 := by
    refine sum_zero_terms (fun q hq => mul_nonneg (h.nonneg' hq) ?_) ?_
    · exact hc.convex.corner_inPoly (List.mem_map_of_mem (List.of_mem_zip hq).2) _ hs'
    · have := h.affine (-((P w).y - (P v).y)) ((P w).x - (P v).x)
        (((P w).y - (P v).y) * (P v).x - ((P w).x - (P v).x) * (P v).y)
      have e : ∀ x : Pt K, -((P w).y - (P v).y) * x.x + ((P w).x - (P v).x) * x.y +
          (((P w).y - (P v).y) * (P v).x - ((P w).x - (P v).x) * (P v).y) = orient (P v) (P w) x := by
        intro x; unfold orient; ring
      simp only [e] at this
      rw [this, hp]
      unfold orient lineAt
      ring
  have hd := dist2_pos hne
  -- the position along the side
  set D := dist2 (P v) (P w) with hD
  have h2 := h.affine ((f w - f v) * ((P w).x - (P v).x) / D) ((f w - f v) * ((P w).y - (P v).y) / D)
    (f v - (f w - f v) * (((P w).x - (P v).x) * (P v).x + ((P w).y - (P v).y) * (P v).y) / D)
  have e : (f w - f v) * ((P w).x - (P v).x) / D * p.x + (f w - f v) * ((P w).y - (P v).y) / D * p.y +
      (f v - (f w - f v) * (((P w).x - (P v).x) * (P v).x + ((P w).y - (P v).y) * (P v).y) / D) = (1 - u) * f v + u * f w := by
    rw [hp]
    have : ((P w).x - (P v).x) * ((P w).x - (P v).x) + ((P w).y - (P v).y) * ((P w).y - (P v).y) = D := by
      rw [hD]; unfold dist2; ring
    unfold lineAt
    field_simp
    linear_combination (f w - f v) * u * this
  rw [e] at h2
  rw [← h2]
  congr 1
  refine List.map_congr_left fun q hq => ?_
  rcases mul_eq_zero.1 (hz q hq) with h0 | h0
  · rw [h0, zero_mul, zero_mul]
  · congr 1
    have hm := (List.of_mem_zip hq).2
    rcases hline _ (List.mem_map_of_mem hm) h0 with h1 | h1
    · have : q.2 = v := hinj _ hm _ mv h1
      rw [this]
      field_simp
      ring
    · have : q.2 = w := hinj _ hm _ mw h1
      rw [this]
      have : ((P w).x - (P v).x) * ((P w).x - (P v).x) + ((P w).y - (P v).y) * ((P w).y - (P v).y) = D := by
        rw [hD]; unfold dist2; ring
      field_simp
      linear_combination -(f w - f v) * this

end Celltree
