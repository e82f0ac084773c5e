import Verif.Proofs.FloatWholeWeights
import Verif.Props.FloatWhole
import Verif.Props.FloatWachspress
import Verif.Props.Interpolation

/-!
# Integer coordinates: interpolation weights of polygons in binary64: C126
-/

set_option linter.unusedSectionVars false

namespace Celltree.Fl

variable {vertices : List (Pt Fl)} {faces : IntArr} {fill nBuckets cellsPerLeaf : Int} {t : CellTree Fl}
variable {points : List (Pt Fl)} {otol : Option Fl} {sched sched1 : List Nat} {tol D : ℚ}

/-! ## One face -/

theorem weights_stored {l l' : List (Pt ℚ)} (hc : StrictlyConvex l) (hw : WholePoly l) (hl : l' = l ∨ l' = l.reverse)
    (hn : (l.length : ℚ) ≤ 2 ^ 20) (hD : ∀ a ∈ l, ∀ b ∈ l, |b.x - a.x| ≤ D ∧ |b.y - a.y| ≤ D) (hD' : D ≤ 2 ^ 18) :
    ∃ (h : 0 < l'.length) (σ : ℚ), WholeStored D h σ ∧ ∀ p, InPoly l p → (∀ k, 0 ≤ sideOr h σ k p) ∧
      ∀ k, |(corner l' h k).x - p.x| ≤ D ∧ |(corner l' h k).y - p.y| ≤ D := by
  have h3 := hc.length
  have hlen : l'.length = l.length := by rcases hl with rfl | rfl <;> simp
  have hmem : ∀ {v}, v ∈ l' → v ∈ l := by
    intro v hv
    rcases hl with rfl | rfl
    · exact hv
    · exact List.mem_reverse.1 hv
  have hnd : l'.Nodup := by
    rcases hl with rfl | rfl
    · exact hc.nodup
    · exact List.nodup_reverse.2 hc.nodup
  have h : 0 < l'.length := by omega
  obtain ⟨σ, hσ, hside⟩ : ∃ σ : ℚ, σ * σ = 1 ∧ ∀ k, ∃ s ∈ sides l, (∀ q, sideOr h σ k q = orient s.1 s.2 q) ∧
      ((s.1 = prevCorner h k ∧ s.2 = prevCorner h (k + 1)) ∨ (s.2 = prevCorner h k ∧ s.1 = prevCorner h (k + 1))) := by
    rcases hl with rfl | rfl
    · exact ⟨1, by norm_num, fun k => ⟨_, prevCorner_side h k, fun q => by unfold sideOr; rw [one_mul], Or.inl ⟨rfl, rfl⟩⟩⟩
    · refine ⟨-1, by norm_num, fun k => ?_⟩
      obtain ⟨s, hs, e⟩ := List.mem_map.1 ((sides_reverse l).mem_iff.1 (prevCorner_side h k))
      have e1 : s.2 = prevCorner h k := (Prod.ext_iff.1 e).1
      have e2 : s.1 = prevCorner h (k + 1) := (Prod.ext_iff.1 e).2
      refine ⟨s, hs, fun q => ?_, Or.inr ⟨e1, e2⟩⟩
      rw [e1, e2]
      unfold sideOr orient
      ring
  have hnn : ∀ k i, 0 ≤ sideOr h σ k (corner l' h i) := by
    intro k i
    obtain ⟨s, hs, e, -⟩ := hside k
    rw [e]
    exact hc.convex.corner_inPoly (hmem (corner_mem h i)) s hs
  have hline : ∀ k i, sideOr h σ k (corner l' h i) = 0 → corner l' h i = prevCorner h k ∨ corner l' h i = prevCorner h (k + 1) := by
    intro k i h0
    obtain ⟨s, hs, e, e'⟩ := hside k
    rw [e] at h0
    rcases (hc.two_on_line hs).2 _ (hmem (corner_mem h i)) h0 with g | g <;> rcases e' with ⟨g1, g2⟩ | ⟨g1, g2⟩
    · left; rw [g, g1]
    · right; rw [g, g2]
    · right; rw [g, g2]
    · left; rw [g, g1]
  have hne2 : ∀ k, prevCorner h (k + 2) ≠ prevCorner h k ∧ prevCorner h (k + 2) ≠ prevCorner h (k + 1) := by
    intro k
    rw [prevCorner_succ h (k + 1)]
    constructor
    · intro e
      have := corner_inj h hnd e
      rw [← Nat.add_mod_right, show k + 1 + l'.length = (k + l'.length - 1) + 2 from by omega] at this
      have h2 : (k + l'.length - 1 + 2) % l'.length = (k + l'.length - 1) % l'.length := this
      have := Nat.sub_mod_eq_zero_of_mod_eq h2
      rw [Nat.add_sub_cancel_left, Nat.mod_eq_of_lt (by omega)] at this
      omega
    · intro e
      rw [prevCorner_succ] at e
      have := Nat.sub_mod_eq_zero_of_mod_eq (corner_inj h hnd e)
      rw [Nat.add_sub_cancel_left, Nat.mod_eq_of_lt (by omega)] at this
      omega
  refine ⟨h, σ, ⟨by omega, by rw [hlen]; exact hn, hσ, fun k => hw.corner _ (hmem (corner_mem h k)),
    fun i j => hD _ (hmem (corner_mem h j)) _ (hmem (corner_mem h i)), hD', ?_, ?_, hnn, hline, hnd⟩, ?_⟩
  · intro k
    obtain ⟨s, hs, -, e'⟩ := hside k
    have := (hc.two_on_line hs).1
    rcases e' with ⟨g1, g2⟩ | ⟨g1, g2⟩
    · rw [← g1, ← g2]; exact this
    · rw [← g1, ← g2]; exact this.symm
  · intro k
    refine lt_of_le_of_ne ?_ fun e => ?_
    · rw [prevCorner_succ h (k + 1)]; exact hnn k (k + 1)
    · have := e.symm
      rw [prevCorner_succ h (k + 1)] at this
      have g := hline k (k + 1) this
      rw [← prevCorner_succ h (k + 1)] at g
      rcases g with g | g
      · exact (hne2 k).1 g
      · exact (hne2 k).2 g
  · intro p hq
    refine ⟨fun k => ?_, fun k => ?_⟩
    · obtain ⟨s, hs, e, -⟩ := hside k
      rw [e]
      exact hq s hs
    · have hc' := hmem (corner_mem h k)
      obtain ⟨⟨v1, m1, e1⟩, ⟨v2, m2, e2⟩, ⟨v3, m3, e3⟩, ⟨v4, m4, e4⟩⟩ := hc.convex.inBoxOf hq
      have a1 := abs_le.1 (hD _ m1 _ hc').1
      have a2 := abs_le.1 (hD _ m2 _ hc').1
      have a3 := abs_le.1 (hD _ m3 _ hc').2
      have a4 := abs_le.1 (hD _ m4 _ hc').2
      exact ⟨abs_le.2 ⟨by linarith, by linarith⟩, abs_le.2 ⟨by linarith, by linarith⟩⟩

/-- What is claimed of the weights `ws` of a point `p` in a face with corners `l` of size up to `D`. -/
structure GoodWeights (l : List (Pt ℚ)) (p : Pt ℚ) (ws : List ℚ) : Prop where
  length : ws.length = l.length
  range : ∀ w ∈ ws, 0 ≤ w ∧ w ≤ 1
  sum : |ws.sum - 1| ≤ 3 * l.length / 2 ^ 53
  mean : ∀ D, (∀ a ∈ l, ∀ b ∈ l, |b.x - a.x| ≤ D ∧ |b.y - a.y| ≤ D) →
    |(weighted l ws).x - p.x| ≤ (66 * D + 3 * l.length * |p.x|) / 2 ^ 53 ∧
    |(weighted l ws).y - p.y| ≤ (66 * D + 3 * l.length * |p.y|) / 2 ^ 53
  side : ∀ s ∈ sides l, orient s.1 s.2 p = 0 → ∀ (c : Nat) w v, ws[c]? = some w → l[c]? = some v → w ≠ 0 → v = s.1 ∨ v = s.2
  vertex : ∀ c : Nat, l[c]? = some p → ws = (List.replicate l.length 0).set c 1

/-- **C126**, one face: the weights of a point at integer coordinates in a strictly convex face at integer coordinates. -/
theorem C126_face_weights {l l' : List (Pt ℚ)} (hc : StrictlyConvex l) (hw : WholePoly l) (hl : l' = l ∨ l' = l.reverse)
    (hn : (l.length : ℚ) ≤ 2 ^ 20) (h1 : 1 / 2 ^ 200 ≤ tol) (h2 : tol ≤ 1 / 2 ^ 20) {p : Pt ℚ} (hp : WholePt p) (hin : InPoly l p)
    {m : Nat} (hm : l'.length ≤ m) :
    ∃ ws : List ℚ, wachspressWeights Fl.env (l'.map fp) (fp p) m (fin tol) = .ok (ws.map fin ++ List.replicate (m - l'.length) 0) ∧
      GoodWeights l' p ws := by
  have hmem : ∀ {v}, v ∈ l → v ∈ l' := by
    intro v hv
    rcases hl with rfl | rfl
    · exact hv
    · exact List.mem_reverse.2 hv
  have hu := u_pos
  -- the weights do not depend on `D`
  obtain ⟨h, f, e1, e2, e3, e4, e5, e6⟩ : ∃ (h : 0 < l'.length) (f : Nat → ℚ),
      wachspressWeights Fl.env (l'.map fp) (fp p) m (fin tol) = .ok (fRow m (fun k => fin (f k)) l'.length) ∧
      (∀ k < l'.length, 0 ≤ f k ∧ f k ≤ 1) ∧ |∑ k ∈ Finset.range l'.length, f k - 1| ≤ 3 * l'.length * u ∧
      (∀ D, (∀ a ∈ l, ∀ b ∈ l, |b.x - a.x| ≤ D ∧ |b.y - a.y| ≤ D) → D ≤ 2 ^ 18 →
        |∑ k ∈ Finset.range l'.length, f k * ((corner l' h k).x - p.x)| ≤ 66 * u * D ∧
        |∑ k ∈ Finset.range l'.length, f k * ((corner l' h k).y - p.y)| ≤ 66 * u * D) ∧
      (∀ i k, i < l'.length → orient (prevCorner h k) (prevCorner h (k + 1)) p = 0 → f i ≠ 0 →
        corner l' h i = prevCorner h k ∨ corner l' h i = prevCorner h (k + 1)) ∧
      (∀ i < l'.length, corner l' h i = p → ∀ k < l'.length, f k = if k = i then 1 else 0) := by
    have hbig : ∀ a ∈ l, ∀ b ∈ l, |b.x - a.x| ≤ (2 : ℚ) ^ 18 ∧ |b.y - a.y| ≤ (2 : ℚ) ^ 18 := hw.small
    obtain ⟨h, σ, S, hS⟩ := weights_stored hc hw hl hn hbig le_rfl
    obtain ⟨p1, p2⟩ := hS p hin
    have hσ0 : σ ≠ 0 := by rintro rfl; simpa using S.sign
    have hz : ∀ k, sideOr h σ k p = 0 ↔ orient (prevCorner h k) (prevCorner h (k + 1)) p = 0 := by
      intro k; unfold sideOr; rw [mul_eq_zero]; exact or_iff_right hσ0
    have hrun := S.run hp h1 h2
    have hl0 : 0 < (l'.map fp).length := by rw [List.length_map]; exact h
    have hm' : (l'.map fp).length ≤ m := by rw [List.length_map]; exact hm
    have hn3 : (3 : ℚ) ≤ l'.length := by exact_mod_cast S.three
    by_cases hex : ∃ j, j ≤ l'.length ∧ orient (prevCorner h j) (prevCorner h (j + 1)) p = 0
    · classical
      have hj1 := (Nat.find_spec hex).1
      have hj2 := (Nat.find_spec hex).2
      have hj3 : ∀ j' < Nat.find hex, ¬ orient (prevCorner h j') (prevCorner h (j' + 1)) p = 0 := by
        intro j' hlt h0
        exact Nat.find_min hex hlt ⟨by omega, h0⟩
      set j := Nat.find hex with hj
      obtain ⟨f, f1, f2, f3, f4, f5, f6, f7⟩ := S.near_row hp p1 hj2
      refine ⟨h, f, ?_, f2, ?_, ?_, fun i k hi hk hf => f6 i k hi ((hz k).2 hk) hf, f7⟩
      · rw [hrun.near_side Fl.env hl0 hm' (by rw [List.length_map]; exact hj1) hj2 hj3, List.length_map]
        exact f1 m hm
      · refine f3.trans ?_
        have := mul_le_mul_of_nonneg_right hn3 hu.le
        linarith
      · intro D hD hD'
        obtain ⟨h', σ', S', hS'⟩ := weights_stored hc hw hl hn hD hD'
        obtain ⟨p1', -⟩ := hS' p hin
        obtain ⟨f', g1, -, -, g4, g5, -⟩ := S'.near_row hp p1' hj2
        have e := (f1 m hm).symm.trans (g1 m hm)
        have ef : ∀ k < l'.length, f k = f' k := by
          intro k hk
          have h3 := congrArg (fun r : List Fl => r[k]?) (Except.ok.inj e)
          rw [fRow_get _ hm (by omega), fRow_get _ hm (by omega), if_pos hk, if_pos hk] at h3
          exact Fl.fin.inj (Option.some.inj h3)
        constructor
        · rw [Finset.sum_congr rfl fun k hk => by rw [ef k (Finset.mem_range.1 hk)]]; exact g4
        · rw [Finset.sum_congr rfl fun k hk => by rw [ef k (Finset.mem_range.1 hk)]]; exact g5
    · have hfar : ∀ k, orient (prevCorner h k) (prevCorner h (k + 1)) p ≠ 0 := by
        intro k h0
        apply hex
        refine ⟨k % l'.length, (Nat.mod_lt _ h).le, ?_⟩
        have a1 := prevCorner_mod (h := h) k 0
        have a2 := prevCorner_mod (h := h) k 1
        rw [Nat.add_zero, Nat.add_zero] at a1
        rw [a1, a2]; exact h0
      have hA : ∀ k, 0 < sideOr h σ k p := fun k => lt_of_le_of_ne (p1 k) fun e => hfar k ((hz k).1 e.symm)
      obtain ⟨f, f1, f2, f3, -, -⟩ := S.far_row hp hA p2
      refine ⟨h, f, ?_, f2, f3, ?_, fun i k _ hk _ => (hfar k hk).elim, ?_⟩
      · have := hrun.far Fl.env hl0 hm' (fun j _ => hfar j) (f := fun k => fin (f k)) (by
          intro i hi
          rw [List.length_map] at hi ⊢
          exact f1 i hi)
        rw [List.length_map] at this
        exact this
      · intro D hD hD'
        obtain ⟨h', σ', S', hS'⟩ := weights_stored hc hw hl hn hD hD'
        obtain ⟨p1', p2'⟩ := hS' p hin
        have hσ0' : σ' ≠ 0 := by rintro rfl; simpa using S'.sign
        have hA' : ∀ k, 0 < sideOr h' σ' k p := fun k => lt_of_le_of_ne (p1' k) fun e => hfar k (by
          unfold sideOr at e
          exact (mul_eq_zero.1 e.symm).resolve_left hσ0')
        obtain ⟨f', g1, -, -, g4, g5⟩ := S'.far_row hp hA' p2'
        have ef : ∀ k < l'.length, f k = f' k := by
          intro k hk
          exact Fl.fin.inj (Except.ok.inj ((f1 k hk).symm.trans (g1 k hk)))
        have hD0 : 0 ≤ u * D := mul_nonneg hu.le ((abs_nonneg _).trans (S'.near 0 0).1)
        constructor
        · rw [Finset.sum_congr rfl fun k hk => by rw [ef k (Finset.mem_range.1 hk)]]; linarith
        · rw [Finset.sum_congr rfl fun k hk => by rw [ef k (Finset.mem_range.1 hk)]]; linarith
      · intro i hi hpi
        exfalso
        apply hfar (i + 1)
        rw [prevCorner_succ, hpi]
        unfold orient; ring
  have e : (List.range l'.length).map f = wRow l'.length f l'.length := by unfold wRow; simp
  have hun : u = 1 / 2 ^ 53 := by unfold u; norm_num
  refine ⟨(List.range l'.length).map f, ?_, by simp, ?_, ?_, ?_, ?_, ?_⟩
  · rw [e1]; unfold fRow; rw [List.map_map]; rfl
  · intro w hw'
    obtain ⟨k, hk, rfl⟩ := List.mem_map.1 hw'
    exact e2 k (List.mem_range.1 hk)
  · rw [e, wRow_sum]
    refine e3.trans (le_of_eq ?_)
    rw [hun]; ring
  · intro D hD
    have hD1 : ∀ a ∈ l, ∀ b ∈ l, |b.x - a.x| ≤ min D (2 ^ 18) ∧ |b.y - a.y| ≤ min D (2 ^ 18) := fun a ha b hb =>
      ⟨le_min (hD a (hmem ha) b (hmem hb)).1 (hw.small a ha b hb).1, le_min (hD a (hmem ha) b (hmem hb)).2 (hw.small a ha b hb).2⟩
    obtain ⟨g1, g2⟩ := e4 _ hD1 (min_le_right _ _)
    have hmin := mul_le_mul_of_nonneg_left (min_le_left D (2 ^ 18)) (show 0 ≤ 66 * u by linarith)
    rw [e, wRow_weighted h]
    have key : ∀ {c : Nat → ℚ} {pv : ℚ}, |∑ k ∈ Finset.range l'.length, f k * (c k - pv)| ≤ 66 * u * min D (2 ^ 18) →
        |∑ k ∈ Finset.range l'.length, f k * c k - pv| ≤ (66 * D + 3 * l'.length * |pv|) / 2 ^ 53 := by
      intro c pv g
      have e7 : ∑ k ∈ Finset.range l'.length, f k * c k - pv = ∑ k ∈ Finset.range l'.length, f k * (c k - pv) +
          (∑ k ∈ Finset.range l'.length, f k - 1) * pv := by
        have : ∑ k ∈ Finset.range l'.length, f k * (c k - pv) = ∑ k ∈ Finset.range l'.length, f k * c k -
            (∑ k ∈ Finset.range l'.length, f k) * pv := by
          rw [Finset.sum_mul, ← Finset.sum_sub_distrib]
          exact Finset.sum_congr rfl fun k _ => by ring
        rw [this]; ring
      rw [e7]
      have e8 := abs_add_le (∑ k ∈ Finset.range l'.length, f k * (c k - pv)) ((∑ k ∈ Finset.range l'.length, f k - 1) * pv)
      rw [abs_mul (∑ k ∈ Finset.range l'.length, f k - 1)] at e8
      have e9 := mul_le_mul_of_nonneg_right e3 (abs_nonneg pv)
      have e10 : (66 * D + 3 * l'.length * |pv|) / 2 ^ 53 = 66 * u * D + 3 * l'.length * u * |pv| := by rw [hun]; ring
      rw [e10]
      linarith
    exact ⟨key g1, key g2⟩
  · intro s hs h0 c w v hw' hv hne
    obtain ⟨k, hk, s1, s2⟩ := mem_sides_iff.1 hs
    obtain ⟨hc1, hc2⟩ := List.getElem?_eq_some_iff.1 hv
    rw [List.getElem?_map, List.getElem?_range hc1] at hw'
    obtain rfl : f c = w := Option.some.inj hw'
    have cv : corner l' h c = v := by
      rw [← hc2]; unfold corner; simp only [Nat.mod_eq_of_lt hc1]
    have p1 : prevCorner h (k + 1) = s.1 := by
      have e0 : l'[k % l'.length]? = some s.1 := by rw [Nat.mod_eq_of_lt hk]; exact s1
      rw [prevCorner_succ]
      exact (List.getElem?_eq_some_iff.1 e0).2
    have p2 : prevCorner h (k + 2) = s.2 := by
      rw [prevCorner_succ h (k + 1)]
      exact (List.getElem?_eq_some_iff.1 s2).2
    have := e5 c (k + 1) hc1 (by rw [p1, show k + 1 + 1 = k + 2 from rfl, p2]; exact h0) hne
    rw [cv, p1, show k + 1 + 1 = k + 2 from rfl, p2] at this
    exact this
  · intro c hcp
    obtain ⟨hc1, hc2⟩ := List.getElem?_eq_some_iff.1 hcp
    have := e6 c hc1 (by rw [← hc2]; unfold corner; simp only [Nat.mod_eq_of_lt hc1])
    apply List.ext_getElem (by simp)
    intro k k1 k2
    rw [List.length_map, List.length_range] at k1
    rw [List.getElem_map, List.getElem_range, this k k1, List.getElem_set, List.getElem_replicate]
    by_cases g : k = c
    · rw [if_pos g, if_pos g.symm]
    · rw [if_neg g, if_neg fun g' => g g'.symm]

/-! ## Meshes -/

/-- **C126**: let a mesh with more than three columns have strictly convex faces with integer coordinates of at most `2 ^ 25`, and
bounding boxes of at most `2 ^ 18`. Then in binary64 `compute_barycentric_weights` returns, for any points at integer coordinates,
the indices of `locate_points` and a row of weights for every point. For a point in a face with `n` corners the row has `n`
weights followed by zeros. They are between zero and one, and sum to one up to `3 n / 2⁵³`; the weighted mean of the corners is
the point up to rounding errors; for a point on a side only the ends have a weight; and the weights of a corner are exactly one at
the corner and zero elsewhere. -/
theorem C126_polygon_weights (hm : GoodMesh Fl.env vertices faces fill)
    (ht : Makes Fl.env vertices faces fill nBuckets cellsPerLeaf t) (hs : sched.Perm (List.range points.length))
    (hs1 : sched1.Perm (List.range points.length)) (hcol : 3 < faces.ncol) (hmany : faces.ncol ≤ 2 ^ 20)
    (hrep : ∀ v ∈ vertices, Rep v.x ∧ Rep v.y) (htol : t.tolerance Fl.env otol = .ok (fin tol)) (h1 : 1 / 2 ^ 200 ≤ tol)
    (h2 : tol ≤ 1 / 2 ^ 20) (hfaces : ∀ r ∈ faces.rows, ∃ l, FaceIs vertices fill r l ∧ StrictlyConvex l ∧ WholePoly l)
    (hp : ∀ p ∈ points, ∃ q, p = fp q ∧ WholePt q) :
    ∃ idx rows, t.barycentricWeights Fl.env points otol sched sched1 = .ok (idx, rows) ∧
      t.locatePoints Fl.env points otol sched = .ok idx ∧ idx.length = points.length ∧ rows.length = points.length ∧
      ∀ (i : Nat) p v row, points[i]? = some (fp p) → idx[i]? = some v → rows[i]? = some row →
        (v = -1 ∧ row = List.replicate faces.ncol 0) ∨
        ∃ (j : Nat) (face : List Int) (corners : List (Pt ℚ)) (ws : List ℚ), v = j ∧ t.data.elements[j]? = some face ∧
          facePts vertices (-1) face = corners.map fp ∧ row = ws.map fin ++ List.replicate (faces.ncol - corners.length) 0 ∧
          GoodWeights corners p ws ∧ ∃ r l, faces.rows[j]? = some r ∧ FaceIs vertices fill r l ∧ StrictlyConvex l ∧ InPoly l p ∧
            (corners = l ∨ corners = l.reverse) := by
  obtain ⟨idx, hidx, hlen⟩ := C66_never_raises (points := points) hm ht hrep hs otol
  have hidx' := hidx
  rw [locatePoints_tol htol] at hidx'
  have key : ∀ (i : Nat) p v, points[i]? = some (fp p) → idx[i]? = some v → v ≠ -1 → ∃ (j : Nat) (r : List Int)
      (l' : List (Pt ℚ)) (ws : List ℚ), v = j ∧ faces.rows[j]? = some r ∧ storedPts vertices fill faces.ncol r = l'.map fp ∧
      wachspressWeights Fl.env (l'.map fp) (fp p) faces.ncol (fin tol) = .ok (ws.map fin ++ List.replicate (faces.ncol - l'.length) 0) ∧
      GoodWeights l' p ws ∧ ∃ l, FaceIs vertices fill r l ∧ StrictlyConvex l ∧ InPoly l p ∧ (l' = l ∨ l' = l.reverse) := by
    intro i p v hpi hv h0
    have hb : WholePt p := by
      obtain ⟨q, e, hq⟩ := hp _ (List.mem_of_getElem? hpi)
      rw [fp_inj e]; exact hq
    obtain ⟨j, r, hj, hrow, poly, hpoly, hacc⟩ := C06_located_point_passes_test hm ht hs hidx' hpi hv h0
    obtain ⟨l, hf, hc, hl⟩ := hfaces r (List.mem_of_getElem? hrow)
    obtain ⟨l₁, hl₁, rfl⟩ := hf.poly hpoly
    obtain ⟨b, k1, k2⟩ := C121_convex_exact h1 h2 hc.convex hl hl₁ hb
    rw [k1] at hacc
    have hin := k2.1 (Except.ok.inj hacc)
    obtain ⟨face, -, -, f4⟩ := ht.stored hm hrow
    have f3 := ht.stored_length hm hrow
    obtain ⟨l', hl', hl2⟩ := hf.poly f4
    rw [hl2, List.length_map] at f3
    have hlen' : l.length = l'.length := by rcases hl' with rfl | rfl <;> simp
    obtain ⟨ws, w1, w2⟩ := C126_face_weights hc hl hl' (by rw [hlen']; exact_mod_cast f3.trans hmany) h1 h2 hb hin f3
    exact ⟨j, r, l', ws, hj, hrow, hl2, w1, w2, l, hf, hc, hin, hl'⟩
  obtain ⟨rows, g1, g2, g3⟩ := barycentric_rows_any hm ht htol hs1 hidx' hlen (by
    intro i p v hpi hv h0
    obtain ⟨q, rfl, -⟩ := hp _ (List.mem_of_getElem? hpi)
    obtain ⟨j, r, l', ws, k1, k2, k3, k4, -⟩ := key i q v hpi hv h0
    refine ⟨j, r, ws.map fin ++ List.replicate (faces.ncol - l'.length) 0, k1, k2, ?_⟩
    rw [k3]
    unfold faceRow
    rw [if_pos hcol]
    exact k4)
  refine ⟨idx, rows, g1, hidx, hlen, g2, ?_⟩
  intro i p v row hpi hv hr
  rcases g3 i _ v row hpi hv hr with h | ⟨j, r, k1, k2, k3⟩
  · exact Or.inl h
  · right
    obtain ⟨j', r', l', ws, a1, a2, a3, a4, a5, l, a6⟩ := key i p v hpi hv (by omega)
    obtain rfl : j' = j := by omega
    obtain rfl : r' = r := by rw [a2] at k2; exact Option.some.inj k2
    obtain ⟨face, f1, f2, -⟩ := ht.stored hm a2
    refine ⟨j', face, l', ws, a1, f1, by rw [← f2, a3], ?_, a5, r', l, a2, a6⟩
    rw [a3] at k3
    unfold faceRow at k3
    rw [if_pos hcol, a4] at k3
    exact (Except.ok.inj k3).symm

theorem mem_face {r : List Int} {l : List (Pt ℚ)} {p : Pt ℚ} (hf : FaceIs vertices fill r l)
    (hp : fp p ∈ facePts vertices fill r) : p ∈ l := by
  rcases hf with g | g <;> rw [g] at hp <;> obtain ⟨w, w1, w2⟩ := List.mem_map.1 hp <;> rw [← fp_inj w2]
  · exact w1
  · exact List.mem_reverse.1 w1

/-- **C126** at a vertex of a mesh without hanging nodes: the weight of the vertex is exactly one and all others are zero. -/
theorem C126_vertex_exact (hm : GoodMesh Fl.env vertices faces fill)
    (ht : Makes Fl.env vertices faces fill nBuckets cellsPerLeaf t) (hs : sched.Perm (List.range points.length))
    (hs1 : sched1.Perm (List.range points.length)) (hcol : 3 < faces.ncol) (hmany : faces.ncol ≤ 2 ^ 20)
    (hrep : ∀ v ∈ vertices, Rep v.x ∧ Rep v.y) (htol : t.tolerance Fl.env otol = .ok (fin tol)) (h1 : 1 / 2 ^ 200 ≤ tol)
    (h2 : tol ≤ 1 / 2 ^ 20) (hfaces : ∀ r ∈ faces.rows, ∃ l, FaceIs vertices fill r l ∧ StrictlyConvex l ∧ WholePoly l)
    (hp : ∀ p ∈ points, ∃ q, p = fp q ∧ WholePt q)
    {i : Nat} {p : Pt ℚ} (hi : points[i]? = some (fp p)) (hv : ∃ r ∈ faces.rows, fp p ∈ facePts vertices fill r)
    (hhang : ∀ r ∈ faces.rows, ∀ l, FaceIs vertices fill r l → StrictlyConvex l → InPoly l p → fp p ∈ facePts vertices fill r) :
    ∃ idx rows, t.barycentricWeights Fl.env points otol sched sched1 = .ok (idx, rows) ∧
      ∃ (j : Nat) (face : List Int) (c : Nat), idx[i]? = some (j : Int) ∧ t.data.elements[j]? = some face ∧
        (facePts vertices (-1) face)[c]? = some (fp p) ∧ rows[i]? = some ((List.replicate faces.ncol 0).set c 1) := by
  obtain ⟨idx, rows, g1, g2, g3, g4, g5⟩ := C126_polygon_weights hm ht hs hs1 hcol hmany hrep htol h1 h2 hfaces hp
  have hfaces' : ∀ r ∈ faces.rows, ∃ l, FaceIs vertices fill r l ∧ ConvexPoly l ∧ WholePoly l := by
    intro r hr
    obtain ⟨l, a1, a2, a3⟩ := hfaces r hr
    exact ⟨l, a1, a2.convex, a3⟩
  have hwp : WholePt p := by
    obtain ⟨q, e, hq⟩ := hp _ (List.mem_of_getElem? hi)
    rw [fp_inj e]; exact hq
  obtain ⟨res, r1, r2⟩ := C121_locate_exact hm ht hrep hs htol h1 h2 hfaces' (points := points)
  obtain rfl : res = idx := Except.ok.inj (r1.symm.trans g2)
  obtain ⟨v, v1, v2, v3⟩ := r2 i p hi hwp
  have hne : v ≠ -1 := by
    intro e
    obtain ⟨r, hr, hpr⟩ := hv
    obtain ⟨l, a1, a2, -⟩ := hfaces r hr
    exact v3 e r hr l a1 a2.convex (a2.convex.corner_inPoly (mem_face a1 hpr))
  have hil : i < rows.length := by rw [g4]; exact (List.getElem?_eq_some_iff.1 hi).1
  refine ⟨res, rows, g1, ?_⟩
  rcases g5 i p v rows[i] hi v1 (List.getElem?_eq_getElem hil) with ⟨h, -⟩ | ⟨j, face, corners, ws, a1, a2, a3, a4, a6, r, l, a7, a8, a9, a10, a11⟩
  · exact (hne h).elim
  · have hmem2 := mem_face a8 (hhang r (List.mem_of_getElem? a7) l a8 a9 a10)
    have hmemc : p ∈ corners := by
      rcases a11 with rfl | rfl
      · exact hmem2
      · exact List.mem_reverse.2 hmem2
    obtain ⟨c, hc⟩ := List.mem_iff_getElem?.1 hmemc
    have hcl := (List.getElem?_eq_some_iff.1 hc).1
    refine ⟨j, face, c, by rw [v1, a1], a2, by rw [a3, List.getElem?_map, hc]; rfl, ?_⟩
    rw [List.getElem?_eq_getElem hil, a4, a6.vertex c hc]
    congr 1
    have hln : corners.length ≤ faces.ncol := by
      have := ht.stored_length hm a7
      obtain ⟨f0, f1, f2, -⟩ := ht.stored hm a7
      rw [f2] at this
      rw [a2] at f1
      obtain rfl := Option.some.inj f1
      rw [a3, List.length_map] at this
      exact this
    rw [List.map_set, List.map_replicate]
    have : List.replicate faces.ncol (0 : Fl) = List.replicate corners.length 0 ++ List.replicate (faces.ncol - corners.length) 0 := by
      rw [List.replicate_append_replicate]; congr 1; omega
    rw [this, List.set_append_left _ _ (by simpa using hcl)]
    rfl

end Celltree.Fl

namespace Celltree.Ex

open Fl

theorem whole_strict : ∀ r ∈ wholeFaces.rows, ∃ l, FaceIs wholeVerts (-1) r l ∧ StrictlyConvex l ∧ WholePoly l := by
  intro r hr
  simp only [wholeFaces, List.mem_cons, List.not_mem_nil, or_false] at hr
  rcases hr with rfl | rfl
  · exact ⟨wholeCell, by decide +kernel, by decide +kernel, wholeCell_whole⟩
  · exact ⟨wholeCell', by decide +kernel, by decide +kernel, wholeCell'_whole⟩

end Celltree.Ex

namespace Celltree.Fl

/-- In the mesh of two cells: the weights of a point inside are rounded, those of a corner and of the middle of a side are exact;
and for every integer point the weights are as claimed. -/
example : ∃ t, Makes Fl.env Ex.wholeVerts Ex.wholeFaces (-1) 4 2 t ∧
    t.barycentricWeights Fl.env [Ex.wholePt 155002 463005, Ex.wholePt 155006 463001, Ex.wholePt 155005 463005] none [0, 1, 2]
      [2, 1, 0] = .ok ([0, 0, 0],
        [[fin (2665143889074047 / 2 ^ 53), fin (7403177469650131 / 2 ^ 55), fin (6909632305006789 / 2 ^ 55),
          fin (5527705844005431 / 2 ^ 54)], [0, 1, 0, 0], [0, fin (1 / 2), fin (1 / 2), 0]]) ∧
    (∀ p : Pt ℚ, WholePt p → ∃ idx rows, t.barycentricWeights Fl.env [fp p] none [0] [0] = .ok (idx, rows)) ∧
    ∃ idx rows, t.barycentricWeights Fl.env [Ex.wholePt 155006 463001] none [0] [0] = .ok (idx, rows) ∧
      ∃ (j : Nat) (face : List Int) (c : Nat), idx[0]? = some (j : Int) ∧ t.data.elements[j]? = some face ∧
        (facePts Ex.wholeVerts (-1) face)[c]? = some (Ex.wholePt 155006 463001) ∧
        rows[0]? = some ((List.replicate 4 0).set c 1) := by
  obtain ⟨t, h1, h2⟩ := bind_eq_ok.1 (show (CellTree.init Fl.env Ex.wholeVerts Ex.wholeFaces (-1) 4 2 [0, 1] >>= fun t =>
    t.barycentricWeights Fl.env [Ex.wholePt 155002 463005, Ex.wholePt 155006 463001, Ex.wholePt 155005 463005] none [0, 1, 2]
      [2, 1, 0]) = .ok ([0, 0, 0],
        [[fin (2665143889074047 / 2 ^ 53), fin (7403177469650131 / 2 ^ 55), fin (6909632305006789 / 2 ^ 55),
          fin (5527705844005431 / 2 ^ 54)], [0, 1, 0, 0], [0, fin (1 / 2), fin (1 / 2), 0]]) by decide +kernel)
  have hmk : Makes Fl.env Ex.wholeVerts Ex.wholeFaces (-1) 4 2 t := ⟨_, by decide, h1⟩
  obtain ⟨tol, e1, e2, e3⟩ := C121_default_tolerance Ex.whole_good hmk Ex.whole_faces
  refine ⟨t, hmk, h2, fun p hp => ?_, ?_⟩
  · obtain ⟨idx, rows, g, -⟩ := C126_polygon_weights (points := [fp p]) Ex.whole_good hmk (List.Perm.refl [0])
      (List.Perm.refl [0]) (by decide) (by decide) Ex.whole_verts_rep e1 e2 e3 Ex.whole_strict (by
        intro q hq
        rw [List.mem_singleton.1 hq]
        exact ⟨p, rfl, hp⟩)
    exact ⟨idx, rows, g⟩
  · have hp : WholePt ⟨155006, 463001⟩ := Ex.wholeCell_whole.corner _ (by decide +kernel)
    exact C126_vertex_exact (points := [fp ⟨155006, 463001⟩]) (p := ⟨155006, 463001⟩) Ex.whole_good hmk (List.Perm.refl [0])
      (List.Perm.refl [0]) (by decide) (by decide) Ex.whole_verts_rep e1 e2 e3 Ex.whole_strict (by
        intro q hq
        rw [List.mem_singleton.1 hq]
        exact ⟨_, rfl, hp⟩) rfl (by decide +kernel) (by
        intro r hr l _ _ _
        simp only [Ex.wholeFaces, List.mem_cons, List.not_mem_nil, or_false] at hr
        rcases hr with rfl | rfl <;> decide +kernel)

/-- The weights of a corner are not exact in a mesh of triangles, which has a formula of its own: the corner `(7, 0)` of a triangle
gets the weight `1 - 2⁻⁵³`, and another corner gets `2⁻⁵³`. -/
theorem C126_triangle_inexact : ∃ t, Makes Fl.env [Ex.wholePt 0 0, Ex.wholePt 7 0, Ex.wholePt 0 7] ⟨3, [[0, 1, 2]]⟩ (-1) 4 2 t ∧
    t.barycentricWeights Fl.env [Ex.wholePt 7 0] none [0] [0] =
      .ok ([0], [[fin (1 / 2 ^ 53), fin (1 - 1 / 2 ^ 53), 0]]) := by
  obtain ⟨t, h1, h2⟩ := bind_eq_ok.1 (show (CellTree.init Fl.env [Ex.wholePt 0 0, Ex.wholePt 7 0, Ex.wholePt 0 7]
    ⟨3, [[0, 1, 2]]⟩ (-1) 4 2 [0] >>= fun t => t.barycentricWeights Fl.env [Ex.wholePt 7 0] none [0] [0]) =
      .ok ([0], [[fin (1 / 2 ^ 53), fin (1 - 1 / 2 ^ 53), 0]]) by decide +kernel)
  exact ⟨t, ⟨_, by decide, h1⟩, h2⟩

end Celltree.Fl
