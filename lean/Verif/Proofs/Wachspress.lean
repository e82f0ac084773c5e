import Verif.Spec.Wachspress
import Verif.Props.Interpolation

/-!
# Interpolated values as Wachspress means
-/

set_option linter.unusedSectionVars false

namespace Celltree

section
variable {α : Type}

theorem cornersOf_eq {l : List α} (h : 0 < l.length) :
    cornersOf l = (List.range l.length).map fun k => (corner l h (k + l.length - 1), corner l h k, corner l h (k + 1)) := by
  unfold cornersOf
  apply List.ext_getElem
  · simp
  · intro k h1 h2
    simp only [List.length_map, List.length_range] at h2
    simp only [List.getElem_zip, List.getElem_rotate, List.getElem_map, List.getElem_range, corner, Nat.mod_eq_of_lt h2]
    simp only [show k + (l.length - 1) = k + l.length - 1 by omega]

theorem cornersOf_reverse {l : List α} (h : 2 ≤ l.length) :
    cornersOf l.reverse = ((cornersOf l).map fun q => (q.2.2, q.2.1, q.1)).reverse := by
  have h0 : 0 < l.length := by omega
  rw [cornersOf_eq (by simpa using h0), cornersOf_eq h0]
  apply List.ext_getElem
  · simp
  · intro k h1 h2
    have hk : k < l.length := by simpa using h1
    simp only [List.length_reverse, List.getElem_map, List.getElem_range, List.getElem_reverse, List.length_map, List.length_range,
      corner, Prod.mk.injEq]
    have e : ∀ m, m % l.length < l.length := fun m => Nat.mod_lt _ h0
    refine ⟨?_, ?_, ?_⟩ <;> congr 1
    · rcases Nat.eq_zero_or_pos k with rfl | hp
      · rw [show 0 + l.length - 1 = l.length - 1 by omega, Nat.mod_eq_of_lt (by omega),
          show l.length - 1 - 0 + 1 = l.length by omega, Nat.mod_self]; omega
      · rw [show k + l.length - 1 = (k - 1) + l.length by omega, Nat.add_mod_right, Nat.mod_eq_of_lt (by omega),
          Nat.mod_eq_of_lt (by omega)]; omega
    · rw [Nat.mod_eq_of_lt hk, Nat.mod_eq_of_lt (by omega)]
    · by_cases hl : k + 1 < l.length
      · rw [Nat.mod_eq_of_lt hl, show l.length - 1 - k + l.length - 1 = (l.length - 1 - (k + 1)) + l.length by omega, Nat.add_mod_right,
          Nat.mod_eq_of_lt (by omega)]
      · rw [show k + 1 = l.length by omega, Nat.mod_self, show l.length - 1 - k + l.length - 1 = l.length - 1 by omega,
          Nat.mod_eq_of_lt (by omega)]; omega

end

variable {K : Type} [Field K] [LinearOrder K] [IsStrictOrderedRing K]

theorem wachspressTerm_reverse (p a b c : Pt K) : wachspressTerm p c b a = - wachspressTerm p a b c := by
  unfold wachspressTerm
  rw [show orient c b a = - orient a b c by unfold orient; ring, show orient c b p = - orient b c p by unfold orient; ring,
    show orient b a p = - orient a b p by unfold orient; ring, neg_mul_neg, mul_comm, neg_div]

/-- The mean does not depend on the direction in which the vertices are given. -/
theorem wachspressValue_reverse (P : Int → Pt K) (f : Int → K) {l : List Int} (h : 2 ≤ l.length) (p : Pt K) :
    wachspressValue P f l.reverse p = wachspressValue P f l p := by
  unfold wachspressValue
  rw [cornersOf_reverse h, List.map_reverse, List.map_reverse, List.sum_reverse, List.sum_reverse, List.map_map, List.map_map]
  have key : ∀ (g : Int × Int × Int → K), (∀ q, g (q.2.2, q.2.1, q.1) = - g q) → ∀ L : List (Int × Int × Int),
      (L.map (g ∘ fun q => (q.2.2, q.2.1, q.1))).sum = - (L.map g).sum := by
    intro g hg L
    induction L with
    | nil => simp
    | cons a L ih => rw [List.map_cons, List.sum_cons, ih, List.map_cons, List.sum_cons, Function.comp_apply, hg]; ring
  rw [key (fun q => wachspressTerm p (P q.1) (P q.2.1) (P q.2.2) * f q.2.1) fun q => by
    simp only; rw [wachspressTerm_reverse]; ring,
    key (fun q => wachspressTerm p (P q.1) (P q.2.1) (P q.2.2)) fun q => by simp only; rw [wachspressTerm_reverse], neg_div_neg_eq]

theorem wachspressTerm_affine {A : Affine K} (hA : A.det ≠ 0) (p a b c : Pt K) :
    wachspressTerm (A.pt p) (A.pt a) (A.pt b) (A.pt c) = A.det⁻¹ * wachspressTerm p a b c := by
  unfold wachspressTerm
  rw [Affine.orient, Affine.orient, Affine.orient]
  by_cases h1 : orient a b p = 0
  · simp [h1]
  by_cases h2 : orient b c p = 0
  · simp [h2]
  field_simp

/-- The mean does not depend on the coordinates. -/
theorem wachspressValue_affine {A : Affine K} (hA : A.det ≠ 0) (P : Int → Pt K) (f : Int → K) (l : List Int) (p : Pt K) :
    wachspressValue (fun v => A.pt (P v)) f l (A.pt p) = wachspressValue P f l p := by
  unfold wachspressValue
  simp only [wachspressTerm_affine hA, mul_assoc, List.sum_map_mul_left]
  rw [mul_div_mul_left _ _ (inv_ne_zero hA)]

theorem wRow_zip' {α : Type} {l : List α} (h : 0 < l.length) (m : Nat) (f : Nat → K) :
    (wRow m f l.length).zip l = (List.range l.length).map fun i => (f i, corner l h i) := by
  apply List.ext_getElem
  · simp [wRow]
  · intro i h1 h2
    simp only [List.length_map, List.length_range] at h2
    simp only [wRow, List.getElem_zip, List.getElem_map, List.getElem_range, corner, Nat.mod_eq_of_lt h2]
    rw [List.getElem_append_left (by simpa using h2)]
    simp

/-- Far from all sides, the interpolated value is the Wachspress mean. -/
theorem inside_value {env : Env K} {P : Int → Pt K} {B : List Int} (hc : ConvexPoly (B.map P)) (hr : ∀ s ∈ sides (B.map P), s.1 ≠ s.2)
    {p : Pt K} (hp : InInterior (B.map P) p) {τ : K} (hn : ∀ s ∈ sides (B.map P), ¬ NearLine τ s.1 s.2 p) {m : Nat} (hm : B.length ≤ m)
    {row : List K} (hrow : faceRow env m (B.map P) p τ = .ok row) (f : Int → K) :
    ((row.zip B).map fun q => q.1 * f q.2).sum = wachspressValue P f B p := by
  have h3 := hc.length
  rw [List.length_map] at h3
  have hB : 0 < B.length := by omega
  unfold faceRow at hrow
  by_cases h4 : m > 3
  · rw [if_pos h4] at hrow
    have h : 0 < (B.map P).length := by simpa using hB
    have hA : ∀ k, 0 < orient (prevCorner h k) (prevCorner h (k + 1)) p := fun k =>
      hp _ (prevCorner_side h k) (hr _ (prevCorner_side h k))
    have hC : ∀ k, 0 ≤ orient (prevCorner h k) (prevCorner h (k + 1)) (prevCorner h (k + 2)) := fun k =>
      hc.support (prevCorner_side h k) (mem_sides_mem (prevCorner_side h (k + 1))).2
    have h0 : ∀ k, sideArea h p k ≠ 0 := fun k => abs_ne_zero.2 (hA k).ne'
    obtain ⟨a, b, c, hsub, hpos⟩ := hc.nondeg
    have hmem : a ∈ B.map P ∧ b ∈ B.map P ∧ c ∈ B.map P := by
      have := hsub.subset
      exact ⟨this (by simp), this (by simp), this (by simp)⟩
    obtain ⟨k, hk, hck⟩ := exists_corner h hr ⟨a, hmem.1, b, hmem.2.1, c, hmem.2.2, hpos.ne'⟩
    have hS := rawWeight_sum_ne h p h0 hk hck
    rw [wachspress_far h p env τ (by simpa using hm) (fun j _ => hn _ (prevCorner_side h j)) (fun j _ => h0 j) hS] at hrow
    have hrow := Except.ok.inj hrow
    rw [List.length_map] at hrow
    subst hrow
    have raw : ∀ k, rawWeight h p k = 2 * wachspressTerm p (P (corner B hB (k + B.length - 1))) (P (corner B hB k)) (P (corner B hB (k + 1))) := by
      intro k
      have e : ∀ k, prevCorner h k = P (corner B hB (k + B.length - 1)) := by
        intro k
        unfold prevCorner corner
        simp only [List.getElem_map, List.length_map]
      have e' : ∀ k, prevCorner h (k + 1) = P (corner B hB k) := by
        intro k
        rw [prevCorner_succ]
        unfold corner
        simp only [List.getElem_map, List.length_map]
      unfold rawWeight cornerArea sideArea wachspressTerm
      rw [abs_of_nonneg (hC k), abs_of_pos (hA k), abs_of_pos (hA (k + 1)), e' (k + 1), e' k, e k]
      ring
    unfold wachspressValue
    rw [wRow_zip' hB, cornersOf_eq hB, List.map_map, List.map_map, List.map_map, sum_range_map, sum_range_map, sum_range_map]
    simp only [Function.comp_apply]
    simp only [raw, ← Finset.mul_sum]
    rw [Finset.sum_div]
    refine Finset.sum_congr rfl fun i _ => ?_
    rw [mul_div_mul_left _ _ (two_ne_zero), div_mul_eq_mul_div]
  · rw [if_neg h4] at hrow
    match B, (show B.length = 3 by omega) with
    | [a, b, c], _ =>
      simp only [List.map_cons, List.map_nil] at hrow hp hr
      have s1 : 0 < orient (P a) (P b) p := hp (P a, P b) (by simp [sides, pairs]) (hr (P a, P b) (by simp [sides, pairs]))
      have s2 : 0 < orient (P b) (P c) p := hp (P b, P c) (by simp [sides, pairs]) (hr (P b, P c) (by simp [sides, pairs]))
      have s3 : 0 < orient (P c) (P a) p := hp (P c, P a) (by simp [sides, pairs]) (hr (P c, P a) (by simp [sides, pairs]))
      have e : orient (P a) (P b) (P c) = orient (P a) (P b) p + orient (P b) (P c) p + orient (P c) (P a) p := by unfold orient; ring
      have e2 : |orient (P a) (P c) p| = orient (P c) (P a) p := by
        rw [show orient (P a) (P c) p = - orient (P c) (P a) p by unfold orient; ring, abs_neg, abs_of_pos s3]
      have hD : 0 < orient (P a) (P b) (P c) := by rw [e]; positivity
      rw [triangleWeights_eq hD.ne', abs_of_pos hD, e2, abs_of_pos s1] at hrow
      have hrow := Except.ok.inj hrow
      subst hrow
      have ec : cornersOf [a, b, c] = [(c, a, b), (a, b, c), (b, c, a)] := rfl
      unfold wachspressValue wachspressTerm
      rw [ec]
      simp only [List.map_cons, List.map_nil, List.zip_cons_cons, List.zip_nil_right, List.sum_cons, List.sum_nil, add_zero]
      rw [show orient (P c) (P a) (P b) = orient (P a) (P b) (P c) by unfold orient; ring,
        show orient (P b) (P c) (P a) = orient (P a) (P b) (P c) by unfold orient; ring]
      rw [e] at hD ⊢
      generalize orient (P a) (P b) p = x at *
      generalize orient (P b) (P c) p = y at *
      generalize orient (P c) (P a) p = z at *
      have := s1.ne'
      have := s2.ne'
      have := s3.ne'
      have := hD.ne'
      have e5 : (x + y + z) / (z * x) + ((x + y + z) / (x * y) + (x + y + z) / (y * z)) = (x + y + z) ^ 2 / (x * y * z) := by
        field_simp; ring
      rw [e5]
      field_simp
      ring

end Celltree
