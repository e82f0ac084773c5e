import Verif.Proofs.FloatPolyClip

/-!
# Areas of clipped polygons in binary64
-/

set_option linter.unusedSectionVars false

namespace Celltree.Fl

theorem mul_le_both {x y R S : ℚ} (h1 : |x| ≤ R) (h2 : |y| ≤ S) (hR : 0 ≤ R) : |x * y| ≤ R * S := by
  rw [abs_mul]; exact mul_le_mul h1 h2 (abs_nonneg _) hR

section
variable {M E η : ℚ} (hM : 1 / 2 ^ 100 ≤ M) (hM' : M ≤ 2 ^ 198) (hE : 1 / 2 ^ 200 ≤ E) (hE' : E ≤ 2 * M)
include hM hM' hE hE'

/-- The area of one triangle. -/
theorem fan_step {a b c : TV} (pa : |a.p.x| ≤ 2 * M ∧ |a.p.y| ≤ 2 * M) (pb : |b.p.x| ≤ 2 * M ∧ |b.p.y| ≤ 2 * M)
    (pc : |c.p.x| ≤ 2 * M ∧ |c.p.y| ≤ 2 * M) (sb : Within (2 * E) b.p a.p) (sc : Within (2 * E) c.p a.p)
    (na : Within η a.p a.x) (nb : Within η b.p b.x) (nc : Within η c.p c.x) (tb : Within E b.x a.x) (_ : Within E c.x a.x)
    (ho : 0 ≤ orient a.x b.x c.x) {U : Pt Fl} (hU : U = toVector (fp a.p) (fp b.p) ∨ U = toVector (fp b.p) (fp a.p)) :
    ∃ t, fabs (cross U (toVector (fp c.p) (fp a.p))) = fin t ∧ 0 ≤ t ∧ t ≤ 9 * E ^ 2 ∧
      |t - orient a.x b.x c.x| ≤ 36 * u * E ^ 2 + 12 * (E * η) := by
  have hu := u_pos
  have hu' : u ≤ 1 / 100 := u_le.trans (by norm_num)
  have hE0 : 0 < E := lt_of_lt_of_le (by positivity) hE
  have hη : 0 ≤ η := (abs_nonneg _).trans na.1
  have h5 : (1 : ℚ) / 2 ^ 500 ≤ 2 * E := le_trans ((inv_pow_le (by norm_num)).trans hE) (by linarith)
  have sw : ∀ {x y d : ℚ}, |x - y| ≤ d → |y - x| ≤ d := fun h => by rwa [abs_sub_comm]
  have vec : ∀ {p q : Pt ℚ}, |p.x| ≤ 2 * M ∧ |p.y| ≤ 2 * M → |q.x| ≤ 2 * M ∧ |q.y| ≤ 2 * M →
      toVector (fp p) (fp q) = (⟨fin (rq (q.x - p.x)), fin (rq (q.y - p.y))⟩ : Pt Fl) := by
    intro p q hp hq
    unfold toVector fp
    rw [Pt.mk.injEq]
    exact ⟨diff_fin hM hM' hq.1 hp.1, diff_fin hM hM' hq.2 hp.2⟩
  -- the exact cross product of the computed corners
  have hx : abs (|(b.p.x - a.p.x) * (c.p.y - a.p.y) - (b.p.y - a.p.y) * (c.p.x - a.p.x)| - orient a.x b.x c.x) ≤ 12 * (E * η) := by
    have e0 : orient a.x b.x c.x = |orient a.x b.x c.x| := (abs_of_nonneg ho).symm
    rw [e0]
    refine (abs_abs_sub_abs_le_abs_sub _ _).trans ?_
    have dx : ∀ {p q : TV}, Within η p.p p.x → Within η q.p q.x →
        |(p.p.x - q.p.x) - (p.x.x - q.x.x)| ≤ 2 * η ∧ |(p.p.y - q.p.y) - (p.x.y - q.x.y)| ≤ 2 * η := by
      intro p q h1 h2
      obtain ⟨h1, h1'⟩ := h1
      obtain ⟨h2, h2'⟩ := h2
      rw [abs_le] at h1 h1' h2 h2' ⊢
      rw [abs_le]
      refine ⟨⟨by linarith [h1.1, h2.2], by linarith [h1.2, h2.1]⟩, by linarith [h1'.1, h2'.2], by linarith [h1'.2, h2'.1]⟩
    obtain ⟨b1, b2⟩ := dx nb na
    obtain ⟨c1, c2⟩ := dx nc na
    have m1 := mul_le_both b1 sc.2 (by linarith)
    have m2 := mul_le_both tb.1 c2 hE0.le
    have m3 := mul_le_both b2 sc.1 (by linarith)
    have m4 := mul_le_both tb.2 c1 hE0.le
    have e : (b.p.x - a.p.x) * (c.p.y - a.p.y) - (b.p.y - a.p.y) * (c.p.x - a.p.x) - orient a.x b.x c.x =
        ((b.p.x - a.p.x) - (b.x.x - a.x.x)) * (c.p.y - a.p.y) + (b.x.x - a.x.x) * ((c.p.y - a.p.y) - (c.x.y - a.x.y)) -
        ((b.p.y - a.p.y) - (b.x.y - a.x.y)) * (c.p.x - a.p.x) - (b.x.y - a.x.y) * ((c.p.x - a.p.x) - (c.x.x - a.x.x)) := by
      unfold orient; ring
    rw [e]
    have r1 : 2 * η * (2 * E) = 4 * (E * η) := by ring
    have r2 : E * (2 * η) = 2 * (E * η) := by ring
    rw [r1] at m1 m3
    rw [r2] at m2 m4
    rw [abs_le] at m1 m2 m3 m4 ⊢
    constructor <;> linarith [m1.1, m1.2, m2.1, m2.2, m3.1, m3.2, m4.1, m4.2]
  have hb : |(b.p.x - a.p.x) * (c.p.y - a.p.y) - (b.p.y - a.p.y) * (c.p.x - a.p.x)| ≤ 8 * E ^ 2 := by
    have m1 := mul_le_both sb.1 sc.2 (by linarith)
    have m2 := mul_le_both sb.2 sc.1 (by linarith)
    have r1 : 2 * E * (2 * E) = 4 * E ^ 2 := by ring
    rw [r1] at m1 m2
    rw [abs_le] at m1 m2 ⊢
    constructor <;> linarith [m1.1, m1.2, m2.1, m2.2]
  -- the computed cross product, for vectors in one of the two directions
  have main : ∀ ux uy : ℚ, |ux| ≤ 2 * E → |uy| ≤ 2 * E → |ux| ≤ 2 ^ 200 → |uy| ≤ 2 ^ 200 →
      U = ⟨fin (rq ux), fin (rq uy)⟩ →
      |ux * (a.p.y - c.p.y) - uy * (a.p.x - c.p.x)| = |(b.p.x - a.p.x) * (c.p.y - a.p.y) - (b.p.y - a.p.y) * (c.p.x - a.p.x)| →
      ∃ t, fabs (cross U (toVector (fp c.p) (fp a.p))) = fin t ∧ 0 ≤ t ∧ t ≤ 9 * E ^ 2 ∧
      |t - orient a.x b.x c.x| ≤ 36 * u * E ^ 2 + 12 * (E * η) := by
    intro ux uy h1 h2 h3 h4 hU' hc
    have w1 := (diff_le hM hM' pa.1 pc.1).1
    have w2 := (diff_le hM hM' pa.2 pc.2).1
    obtain ⟨k1, _⟩ := cross_vec h3 h4 w1 w2
    have er := cross_err h1 (sw sc.1) h2 (sw sc.2) h5 h5
    have er' : |crossR ux uy (a.p.x - c.p.x) (a.p.y - c.p.y) - (ux * (a.p.y - c.p.y) - uy * (a.p.x - c.p.x))| ≤ 36 * u * E ^ 2 := by
      have e : 9 * u * (2 * E * (2 * E)) = 36 * u * E ^ 2 := by ring
      rw [← e]; exact er
    have er2 := (abs_abs_sub_abs_le_abs_sub _ _).trans er'
    rw [hc] at er2
    refine ⟨|crossR ux uy (a.p.x - c.p.x) (a.p.y - c.p.y)|, ?_, abs_nonneg _, ?_, ?_⟩
    · rw [hU', vec pc pa, k1, fabs_fin]
    · rw [abs_le] at er2
      have : 36 * u * E ^ 2 ≤ E ^ 2 := by
        have : 36 * u ≤ 1 := by linarith
        calc 36 * u * E ^ 2 ≤ 1 * E ^ 2 := mul_le_mul_of_nonneg_right this (by positivity)
          _ = E ^ 2 := one_mul _
      linarith [er2.2]
    · rw [abs_le] at er2 hx ⊢
      constructor <;> linarith [er2.1, er2.2, hx.1, hx.2]
  rcases hU with hU | hU
  · exact main (b.p.x - a.p.x) (b.p.y - a.p.y) sb.1 sb.2 (diff_le hM hM' pb.1 pa.1).1 (diff_le hM hM' pb.2 pa.2).1
      (by rw [hU, vec pa pb]) (by rw [← abs_neg]; congr 1; ring)
  · exact main (a.p.x - b.p.x) (a.p.y - b.p.y) (sw sb.1) (sw sb.2) (diff_le hM hM' pa.1 pb.1).1 (diff_le hM hM' pa.2 pb.2).1
      (by rw [hU, vec pb pa]) (by congr 1; ring)

/-- The loop that adds the triangles. -/
theorem fan_loop {a : TV} (pa : |a.p.x| ≤ 2 * M ∧ |a.p.y| ≤ 2 * M) (na : Within η a.p a.x) (L : List TV) (b : TV)
    (hp : ∀ v ∈ b :: L, |v.p.x| ≤ 2 * M ∧ |v.p.y| ≤ 2 * M) (hs : ∀ v ∈ b :: L, Within (2 * E) v.p a.p)
    (hn : ∀ v ∈ b :: L, Within η v.p v.x) (ht : ∀ v ∈ b :: L, Within E v.x a.x)
    (ho : ∀ q ∈ pairs (b :: L), 0 ≤ orient a.x q.1.x q.2.x) {U : Pt Fl}
    (hU : U = toVector (fp a.p) (fp b.p) ∨ U = toVector (fp b.p) (fp a.p)) {j : ℕ} (hj : j + L.length ≤ 64) {s X : ℚ}
    (h0 : 0 ≤ s) (hs1 : s ≤ j * (10 * E ^ 2)) (hsX : |s - X| ≤ j * (676 * u * E ^ 2 + 12 * (E * η))) :
    ∃ s', polygonAreaLoop (fp a.p) U ((L.map TV.p).map fp) (fin s) = fin s' ∧ 0 ≤ s' ∧
      s' ≤ (j + L.length : ℕ) * (10 * E ^ 2) ∧
      |s' - (X + fan2 a.x ((b :: L).map TV.x))| ≤ (j + L.length : ℕ) * (676 * u * E ^ 2 + 12 * (E * η)) := by
  have hu := u_pos
  have hE0 : 0 < E := lt_of_lt_of_le (by positivity) hE
  induction L generalizing b U j s X with
  | nil => exact ⟨s, rfl, h0, by simpa using hs1, by simpa [fan2] using hsX⟩
  | cons c L ih =>
    have mb : b ∈ b :: c :: L := by simp
    have mc : c ∈ b :: c :: L := by simp
    obtain ⟨t, t1, t2, t3, t4⟩ := fan_step hM hM' hE hE' pa (hp b mb) (hp c mc) (hs b mb) (hs c mc) na (hn b mb) (hn c mc)
      (ht b mb) (ht c mc) (ho (b, c) (by simp)) hU
    rw [List.length_cons] at hj
    have hj64 : (j : ℚ) + 1 ≤ 64 := by
      have : j + 1 ≤ 64 := by omega
      exact_mod_cast this
    have hE2 : 0 < E ^ 2 := by positivity
    have hst : s + t ≤ 640 * E ^ 2 := by nlinarith
    have hE2' : 1 / 2 ^ 400 ≤ E ^ 2 := by
      have : (1 : ℚ) / 2 ^ 400 = (1 / 2 ^ 200) ^ 2 := by rw [div_pow, one_pow, ← pow_mul]
      rw [this]
      exact pow_le_pow_left₀ (by positivity) hE 2
    have hb : |s + t| ≤ 640 * E ^ 2 := by rw [abs_of_nonneg (by linarith)]; exact hst
    have hbig : |s + t| ≤ 2 ^ 410 := by
      refine hb.trans ?_
      have h1 : E ≤ 2 ^ 199 := hE'.trans (two_M hM hM').2
      have h2 : E ^ 2 ≤ (2 ^ 199) ^ 2 := pow_le_pow_left₀ hE0.le h1 2
      have h3 : ((2 : ℚ) ^ 199) ^ 2 = 2 ^ 398 := by rw [← pow_mul]
      have h4 : (2 : ℚ) ^ 410 = 2 ^ 398 * 4096 := by rw [show 410 = 398 + 12 by norm_num, pow_add]; norm_num
      rw [h3] at h2
      rw [h4]
      generalize (2 : ℚ) ^ 398 = P at h2
      linarith
    have er := rq_abs hb (by
      refine le_trans ((inv_pow_le (by norm_num : 400 ≤ 1000)).trans hE2') (by linarith))
    have hq0 : 0 ≤ rq (s + t) := rq_nonneg (by linarith)
    have hu640 : u * (640 * E ^ 2) ≤ E ^ 2 := by
      have : u * 640 ≤ 1 := by unfold u; norm_num
      calc u * (640 * E ^ 2) = u * 640 * E ^ 2 := by ring
        _ ≤ 1 * E ^ 2 := mul_le_mul_of_nonneg_right this hE2.le
        _ = E ^ 2 := one_mul _
    rw [abs_le] at er t4 hsX
    have hpc : ∀ q ∈ pairs (c :: L), q ∈ pairs (b :: c :: L) := fun q hq => by
      rw [pairs_cons_cons]; exact List.mem_cons_of_mem _ hq
    have sub : ∀ v ∈ c :: L, v ∈ b :: c :: L := fun v hv => List.mem_cons_of_mem _ hv
    obtain ⟨s', g1, g2, g3, g4⟩ := ih c (fun v hv => hp v (sub v hv)) (fun v hv => hs v (sub v hv)) (fun v hv => hn v (sub v hv))
      (fun v hv => ht v (sub v hv)) (fun q hq => ho q (hpc q hq)) (Or.inr rfl : toVector (fp c.p) (fp a.p) = _ ∨ _)
      (j := j + 1) (by omega) hq0 (by push_cast; linarith [er.2]) (X := X + orient a.x b.x c.x)
      (by
        push_cast
        rw [abs_le]
        constructor <;> linarith [er.1, er.2, t4.1, t4.2, hsX.1, hsX.2])
    refine ⟨s', ?_, g2, ?_, ?_⟩
    · rw [List.map_cons, List.map_cons]
      unfold polygonAreaLoop
      simp only
      rw [t1, add_fin (k := 410) (by norm_num) hbig]
      exact g1
    · have e : j + (c :: L).length = j + 1 + L.length := by rw [List.length_cons]; omega
      rw [e]; exact g3
    · have e : j + (c :: L).length = j + 1 + L.length := by rw [List.length_cons]; omega
      rw [e, List.map_cons, List.map_cons, fan2_cons, ← add_assoc, ← List.map_cons (f := TV.x)]
      exact g4

/-- The computed area of a polygon that is near a convex polygon. -/
theorem poly_area {T : List TV} (hc : ConvexPoly (T.map TV.x)) (h64 : T.length ≤ 64)
    (hp : ∀ v ∈ T, |v.p.x| ≤ 2 * M ∧ |v.p.y| ≤ 2 * M) (hs : ∀ v ∈ T, ∀ w ∈ T, Within (2 * E) v.p w.p)
    (hn : ∀ v ∈ T, Within η v.p v.x) (ht : ∀ v ∈ T, ∀ w ∈ T, Within E v.x w.x) :
    ∃ A, polygonArea ((T.map TV.p).map fp) = .ok (fin A) ∧ 0 ≤ A ∧
      |A - shoelace (T.map TV.x)| ≤ T.length * (338 * u * E ^ 2 + 6 * (E * η)) := by
  have hu := u_pos
  have hE0 : 0 < E := lt_of_lt_of_le (by positivity) hE
  have hE2 : 0 < E ^ 2 := by positivity
  have h3 := hc.length
  rw [List.length_map] at h3
  match T, h3 with
  | a :: b :: L, h3 =>
    have ma : a ∈ a :: b :: L := by simp
    have sub : ∀ v ∈ b :: L, v ∈ a :: b :: L := fun v hv => List.mem_cons_of_mem _ hv
    have hη : 0 ≤ η := (abs_nonneg _).trans (hn a ma).1
    simp only [List.length_cons] at h64 h3
    obtain ⟨s, g1, g2, g3, g4⟩ := fan_loop hM hM' hE hE' (hp a ma) (hn a ma) L b (fun v hv => hp v (sub v hv))
      (fun v hv => hs v (sub v hv) a ma) (fun v hv => hn v (sub v hv)) (fun v hv => ht v (sub v hv) a ma)
      (fun q hq => by
        refine hc.turn _ _ _ ?_
        exact ((pairs_sublist hq).map TV.x).cons_cons a.x) (Or.inl rfl) (j := 0) (by omega) (le_refl 0) (by simp) (X := 0) (by simp)
    rw [zero_add, Nat.zero_add] at g4
    rw [Nat.zero_add] at g3
    have hL : (L.length : ℚ) ≤ 62 := by
      have : L.length ≤ 62 := by omega
      exact_mod_cast this
    have hL1 : (1 : ℚ) ≤ L.length := by
      have : 1 ≤ L.length := by omega
      exact_mod_cast this
    have hs620 : s ≤ 620 * E ^ 2 := by nlinarith
    have hb : |1 / 2 * s| ≤ 310 * E ^ 2 := by rw [abs_of_nonneg (by linarith)]; linarith
    have hE2' : 1 / 2 ^ 400 ≤ E ^ 2 := by
      have : (1 : ℚ) / 2 ^ 400 = (1 / 2 ^ 200) ^ 2 := by rw [div_pow, one_pow, ← pow_mul]
      rw [this]
      exact pow_le_pow_left₀ (by positivity) hE 2
    have hbig : |1 / 2 * s| ≤ 2 ^ 410 := by
      refine hb.trans ?_
      have h1 : E ≤ 2 ^ 199 := hE'.trans (two_M hM hM').2
      have h2 : E ^ 2 ≤ (2 ^ 199) ^ 2 := pow_le_pow_left₀ hE0.le h1 2
      have h3 : ((2 : ℚ) ^ 199) ^ 2 = 2 ^ 398 := by rw [← pow_mul]
      have h4 : (2 : ℚ) ^ 410 = 2 ^ 398 * 4096 := by rw [show 410 = 398 + 12 by norm_num, pow_add]; norm_num
      rw [h3] at h2
      rw [h4]
      generalize (2 : ℚ) ^ 398 = P at h2
      linarith
    have er := rq_abs hb (by
      refine le_trans ((inv_pow_le (by norm_num : 400 ≤ 1000)).trans hE2') (by linarith))
    refine ⟨rq (1 / 2 * s), ?_, rq_nonneg (by linarith), ?_⟩
    · simp only [List.map_cons, polygonArea]
      rw [zero_def, g1, half_fl, mul_fin (k := 410) (by norm_num) hbig]
    · rw [List.map_cons, shoelace_eq_fan2]
      simp only [List.length_cons]
      push_cast
      have hpos1 : 0 < u * E ^ 2 := by positivity
      have hpos2 : 0 ≤ E * η := by positivity
      rw [abs_le] at er g4 ⊢
      constructor <;> nlinarith [er.1, er.2, g4.1, g4.2]

end

section
variable {M E ρ σ : ℚ} {l c : List (Pt ℚ)} (hM : 1 / 2 ^ 100 ≤ M) (hM' : M ≤ 2 ^ 198) (hg : GenPair M E ρ σ l c)
include hM hM' hg

/-- The computed area of intersection of two polygons in general position. -/
theorem GenPair.area (hl : l.length ≤ 32) (hc : c.length ≤ 32) :
    ∃ x A, polygonPolygonClipArea (l.map fp) (c.map fp) = .ok (fin x) ∧ polygonPolygonClipArea l c = .ok A ∧ 0 ≤ x ∧
      |x - A| ≤ pairAcc M E σ l c := by
  have hE := hg.E_pos hM hM'
  have hM0 := hg.M_pos hM hM'
  have hσ := hg.sigma.1
  have hacc : 0 ≤ pairAcc M E σ l c := by unfold pairAcc; positivity
  rcases hg.clip hM hM' hl hc with ⟨h1, h2⟩ | ⟨T, U, hU, hT, hlen, h1, h2⟩
  · refine ⟨0, 0, ?_, ?_, le_refl _, by simpa using hacc⟩
    · unfold polygonPolygonClipArea
      rw [h2]; rfl
    · unfold polygonPolygonClipArea
      rw [h1]; rfl
  have hω : 0 < M * E / 2 ^ 44 := by positivity
  have hδ : (c.length : ℚ) * (M * E / 2 ^ 44) ≤ M * E / 2 ^ 39 := by
    have h32 : (c.length : ℚ) ≤ 32 := by exact_mod_cast hc
    have := mul_le_mul_of_nonneg_right h32 hω.le
    have e : (32 : ℚ) * (M * E / 2 ^ 44) = M * E / 2 ^ 39 := by ring
    linarith
  obtain ⟨A, g1, g2, g3⟩ := poly_area hM hM' (hg.E_tiny hM hM') hg.size_le hT.convex (by omega)
    (fun v hv => (hg.vtx_bnd hM hM' hU hδ (hT.vtx v hv)).1)
    (fun v hv w hw => hg.vtx_size hM hM' hU hδ (hT.vtx v hv) (hT.vtx w hw))
    (fun v hv => hg.vtx_near hM hM' hU (hT.vtx v hv))
    (fun v hv w hw => hg.point_size hM hM' (hT.vtx v hv).inl (hT.vtx w hw).inl)
  refine ⟨A, shoelace (T.map TV.x), ?_, ?_, g2, g3.trans ?_⟩
  · unfold polygonPolygonClipArea
    rw [h2, ok_bind]
    exact g1
  · unfold polygonPolygonClipArea
    rw [h1, ok_bind]
    exact hT.convex.polygonArea
  · have hn : (T.length : ℚ) ≤ (l.length + c.length : ℕ) := by exact_mod_cast hlen
    have hc1 : (1 : ℚ) ≤ c.length := by
      have := hg.clipper.length
      have : 1 ≤ c.length := by omega
      exact_mod_cast this
    have e1 : E * (2 * (c.length * (M * E / 2 ^ 44)) / (σ * E)) = c.length * (M * E / (2 ^ 43 * σ)) := by
      field_simp
    have e2 : 338 * u * E ^ 2 ≤ c.length * (M * E / (2 ^ 43 * σ)) := by
      have h1 : 338 * u * E ^ 2 ≤ 338 * u * (2 * M * E) := by
        rw [sq]
        exact mul_le_mul_of_nonneg_left (mul_le_mul_of_nonneg_right hg.size_le hE.le) (by have := u_pos; positivity)
      have h2 : M * E / 2 ^ 43 ≤ M * E / (2 ^ 43 * σ) := by
        refine div_le_div_of_nonneg_left (by positivity) (by positivity) ?_
        exact mul_le_of_le_one_right (by positivity) hg.sigma.2
      have h3 : 338 * u * (2 * M * E) ≤ M * E / 2 ^ 43 := by
        unfold u
        have : 0 < M * E := by positivity
        have e2 : 338 * (1 / 2 ^ 53) * (2 * M * E) = 676 / 2 ^ 53 * (M * E) := by ring
        have e3 : M * E / 2 ^ 43 = 1024 / 2 ^ 53 * (M * E) := by ring
        rw [e2, e3]
        exact mul_le_mul_of_nonneg_right (by norm_num) this.le
      have h4 : M * E / (2 ^ 43 * σ) ≤ c.length * (M * E / (2 ^ 43 * σ)) := le_mul_of_one_le_left (by positivity) hc1
      linarith
    rw [e1]
    have e4 : pairAcc M E σ l c = (l.length + c.length : ℕ) * (8 * (c.length * (M * E / (2 ^ 43 * σ)))) := by
      unfold pairAcc
      push_cast
      field_simp
      norm_num
    rw [e4]
    have hX : 0 < c.length * (M * E / (2 ^ 43 * σ)) := by positivity
    refine mul_le_mul hn ?_ (by have := u_pos; positivity) (by positivity)
    linarith

end

end Celltree.Fl
