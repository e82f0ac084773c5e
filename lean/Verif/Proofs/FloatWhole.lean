import Verif.Spec.FloatWhole
import Verif.Proofs.FloatTol
import Verif.Proofs.FloatSides
import Verif.Proofs.ConvexPoint

/-!
# Integer coordinates: the tests on points are exact in binary64
-/

namespace Celltree.Fl

/-! ## Exact operations -/

theorem _root_.Celltree.Whole.isRep {n : Nat} {q : ℚ} (h : Whole n q) (hn : n ≤ 53) : IsRep q := by
  obtain ⟨m, rfl, hm⟩ := h
  have h53 : |m| ≤ 2 ^ 53 := hm.trans (pow_le_pow_right₀ (by norm_num) hn)
  rcases h53.lt_or_eq with h | h
  · exact ⟨m, 0, by simp, h, by norm_num⟩
  · rcases abs_choice m with g | g
    · exact ⟨1, 53, by rw [show m = 2 ^ 53 by omega]; norm_num, by norm_num, by norm_num⟩
    · exact ⟨-1, 53, by rw [show m = -2 ^ 53 by omega]; norm_num, by norm_num, by norm_num⟩

theorem _root_.Celltree.Whole.abs_le {n : Nat} {q : ℚ} (h : Whole n q) : |q| ≤ 2 ^ n := by
  obtain ⟨m, rfl, hm⟩ := h
  exact_mod_cast hm

theorem _root_.Celltree.Whole.rnd {n : Nat} {q : ℚ} (h : Whole n q) (hn : n ≤ 53) : Fl.rnd q = fin q := by
  rw [rnd_fin (h.abs_le.trans (pow_le_big (by omega))), rq_of_isRep (h.isRep hn)]

theorem _root_.Celltree.Whole.sub {n : Nat} {p q : ℚ} (hp : Whole n p) (hq : Whole n q) : Whole (n + 1) (p - q) := by
  obtain ⟨a, rfl, ha⟩ := hp
  obtain ⟨b, rfl, hb⟩ := hq
  refine ⟨a - b, by push_cast; rfl, (abs_sub a b).trans ?_⟩
  rw [pow_succ]
  omega

theorem _root_.Celltree.Whole.add {n : Nat} {p q : ℚ} (hp : Whole n p) (hq : Whole n q) : Whole (n + 1) (p + q) := by
  obtain ⟨a, rfl, ha⟩ := hp
  obtain ⟨b, rfl, hb⟩ := hq
  refine ⟨a + b, by push_cast; rfl, (abs_add_le a b).trans ?_⟩
  rw [pow_succ]
  omega

theorem _root_.Celltree.Whole.mul {n m : Nat} {p q : ℚ} (hp : Whole n p) (hq : Whole m q) : Whole (n + m) (p * q) := by
  obtain ⟨a, rfl, ha⟩ := hp
  obtain ⟨b, rfl, hb⟩ := hq
  refine ⟨a * b, by push_cast; rfl, ?_⟩
  rw [abs_mul, pow_add]
  exact mul_le_mul ha hb (abs_nonneg _) (by positivity)

theorem _root_.Celltree.Whole.small {n m : Nat} {q : ℚ} (h : Whole n q) (hq : |q| ≤ 2 ^ m) : Whole m q := by
  obtain ⟨a, rfl, -⟩ := h
  exact ⟨a, rfl, by exact_mod_cast hq⟩

/-- An integer that is smaller than one is zero. -/
theorem _root_.Celltree.Whole.eq_zero {n : Nat} {q : ℚ} (h : Whole n q) (hq : q * q < 1) : q = 0 := by
  obtain ⟨a, rfl, -⟩ := h
  have : a * a < 1 := by exact_mod_cast hq
  have : a = 0 := by nlinarith [mul_self_nonneg a, mul_self_nonneg (a - 1), mul_self_nonneg (a + 1), show a * a = 0 by nlinarith [mul_self_nonneg a]]
  rw [this]; rfl

theorem _root_.Celltree.Whole.one_le {n : Nat} {q : ℚ} (h : Whole n q) (hq : q ≠ 0) : 1 ≤ q * q := by
  by_contra hlt
  exact hq (h.eq_zero (not_le.1 hlt))

theorem whole_sub {n : Nat} {p q : ℚ} (hp : Whole n p) (hq : Whole n q) (hn : n ≤ 52) : fin p - fin q = fin (p - q) := by
  rw [fin_sub]; exact (hp.sub hq).rnd (by omega)

theorem whole_add {n : Nat} {p q : ℚ} (hp : Whole n p) (hq : Whole n q) (hn : n ≤ 52) : fin p + fin q = fin (p + q) := by
  rw [fin_add]; exact (hp.add hq).rnd (by omega)

theorem whole_mul {n m : Nat} {p q : ℚ} (hp : Whole n p) (hq : Whole m q) (hn : n + m ≤ 53) : fin p * fin q = fin (p * q) := by
  rw [fin_mul]; exact (hp.mul hq).rnd hn

/-! ## Vectors -/

theorem whole_toVector {a b : Pt ℚ} (ha : WholePt a) (hb : WholePt b) : toVector (fp a) (fp b) = fp (toVector a b) ∧
    Whole 26 (toVector a b).x ∧ Whole 26 (toVector a b).y := by
  refine ⟨?_, hb.1.sub ha.1, hb.2.sub ha.2⟩
  unfold toVector fp
  simp only
  rw [whole_sub hb.1 ha.1 (by omega), whole_sub hb.2 ha.2 (by omega)]

theorem whole_cross {u v : Pt ℚ} (h1 : Whole 26 u.x) (h2 : Whole 26 u.y) (h3 : Whole 26 v.x) (h4 : Whole 26 v.y) :
    cross (fp u) (fp v) = fin (cross u v) ∧ Whole 53 (cross u v) := by
  unfold cross fp
  simp only
  rw [whole_mul h1 h4 (by omega), whole_mul h2 h3 (by omega), whole_sub (h1.mul h4) (h2.mul h3) (by omega)]
  exact ⟨rfl, (h1.mul h4).sub (h2.mul h3)⟩

theorem whole_lengthSquared {u : Pt ℚ} (h1 : Whole 18 u.x) (h2 : Whole 18 u.y) :
    lengthSquared (fp u) = fin (lengthSquared u) ∧ Whole 37 (lengthSquared u) := by
  unfold lengthSquared fp
  simp only
  rw [whole_mul h1 h1 (by omega), whole_mul h2 h2 (by omega), whole_add (h1.mul h1) (h2.mul h2) (by omega)]
  exact ⟨rfl, (h1.mul h1).add (h2.mul h2)⟩

/-! ## The tests -/

theorem rq_range {q : ℚ} {k E : Nat} (hk : k ≤ 1074) (h1 : 1 / 2 ^ k ≤ q) (h2 : q ≤ 2 ^ E) : 1 / 2 ^ k ≤ rq q ∧ rq q ≤ 2 ^ E := by
  constructor
  · have := rq_mono h1
    rwa [rq_of_isRep (isRep_two_pow_inv hk)] at this
  · have := rq_mono h2
    rwa [rq_of_isRep (isRep_two_pow E)] at this

section
variable {tol : ℚ} (h1 : 1 / 2 ^ 200 ≤ tol) (h2 : tol ≤ 1 / 2 ^ 20)
include h1 h2

theorem whole_within_q {A : ℚ} {W : Pt ℚ} (hA : Whole 53 A) (hL : Whole 37 (lengthSquared W)) (hW : 1 ≤ lengthSquared W) :
    withinPerpendicularDistance A W tol = decide (A = 0) := by
  unfold withinPerpendicularDistance
  have ht : 0 < tol := lt_of_lt_of_le (by positivity) h1
  have hL' := le_of_abs_le hL.abs_le
  generalize lengthSquared W = L at *
  apply decide_eq_decide.2
  constructor
  · intro h
    refine hA.eq_zero (h.trans_le ?_)
    have : tol * L ≤ 1 / 2 ^ 20 * 2 ^ 37 := mul_le_mul h2 hL' (by linarith) (by positivity)
    calc tol * L * tol ≤ (1 / 2 ^ 20 * 2 ^ 37) * (1 / 2 ^ 20) := mul_le_mul this h2 ht.le (by positivity)
      _ ≤ 1 := by norm_num
  · rintro rfl
    rw [zero_mul]
    have : 0 < L := by linarith
    positivity

theorem whole_within {A : ℚ} {W : Pt ℚ} (hA : Whole 53 A) (hL : Whole 37 (lengthSquared W)) (hW : 1 ≤ lengthSquared W)
    (e : lengthSquared (fp W) = fin (lengthSquared W)) :
    withinPerpendicularDistance (fin A) (fp W) (fin tol) = decide (A = 0) := by
  unfold withinPerpendicularDistance
  rw [e]
  have ht : 0 < tol := lt_of_lt_of_le (by positivity) h1
  have hL' := le_of_abs_le hL.abs_le
  generalize lengthSquared W = L at *
  have a1 : 1 / 2 ^ 200 ≤ tol * L := by
    calc (1 : ℚ) / 2 ^ 200 = 1 / 2 ^ 200 * 1 := by ring
      _ ≤ tol * L := mul_le_mul h1 hW (by norm_num) ht.le
  have a2 : tol * L ≤ 2 ^ 17 := by
    calc tol * L ≤ 1 / 2 ^ 20 * 2 ^ 37 := mul_le_mul h2 hL' (by linarith) (by positivity)
      _ = 2 ^ 17 := by norm_num
  have p1 : 0 < tol * L := lt_of_lt_of_le (by positivity) a1
  obtain ⟨b1, b2⟩ := rq_range (by norm_num) a1 a2
  have q1 : 0 < rq (tol * L) := lt_of_lt_of_le (by positivity) b1
  have c1 : 1 / 2 ^ 400 ≤ rq (tol * L) * tol := by
    calc (1 : ℚ) / 2 ^ 400 = 1 / 2 ^ 200 * (1 / 2 ^ 200) := by rw [div_mul_div_comm, ← pow_add, one_mul]
      _ ≤ rq (tol * L) * tol := mul_le_mul b1 h1 (by positivity) q1.le
  have c2 : rq (tol * L) * tol ≤ 1 / 2 ^ 3 := by
    calc rq (tol * L) * tol ≤ 2 ^ 17 * (1 / 2 ^ 20) := mul_le_mul b2 h2 ht.le (by positivity)
      _ = 1 / 2 ^ 3 := by norm_num
  have d1 : 0 < rq (rq (tol * L) * tol) := lt_of_lt_of_le (by positivity) (rq_range (by norm_num) c1 (E := 0) (c2.trans (by norm_num))).1
  have d2 : rq (rq (tol * L) * tol) ≤ 1 / 2 ^ 3 := by
    have := rq_mono c2
    rwa [rq_of_isRep (isRep_two_pow_inv (by norm_num))] at this
  have hAA := abs_mul_le_pow hA.abs_le hA.abs_le
  rw [fin_mul, fin_mul, rnd_fin (hAA.trans (pow_le_big (by norm_num))),
    rnd_fin ((show |tol * L| ≤ 2 ^ 17 by rw [abs_of_pos p1]; exact a2).trans (pow_le_big (by norm_num))), fin_mul,
    rnd_fin ((show |rq (tol * L) * tol| ≤ 2 ^ 0 by
      rw [abs_of_pos (mul_pos q1 ht)]; exact c2.trans (by norm_num)).trans (pow_le_big (by norm_num)))]
  apply decide_eq_decide.2
  rw [lt_fin]
  constructor
  · intro h
    by_contra h0
    have := rq_mono (hA.one_le h0)
    rw [rq_of_isRep isRep_one] at this
    have h3 : (1 : ℚ) / 2 ^ 3 < 1 := by norm_num
    linarith
  · rintro rfl
    rw [mul_zero, rq_zero]
    exact d1

end

theorem whole_inBounds {p a b : Pt ℚ} (ha : WholePt a) (hb : WholePt b) : inBounds (fp p) (fp a) (fp b) = inBounds p a b := by
  have hx := fmin_fin a.x b.x
  have hx' := fmax_fin a.x b.x
  have hy := fmin_fin a.y b.y
  have hy' := fmax_fin a.y b.y
  rw [← fmin_eq] at hx hy
  rw [← fmax_eq] at hx' hy'
  have w1 : Whole 25 (fmin a.x b.x) := by unfold fmin; split; exacts [hb.1, ha.1]
  have w2 : Whole 25 (fmax a.x b.x) := by unfold fmax; split; exacts [hb.1, ha.1]
  have w3 : Whole 25 (fmin a.y b.y) := by unfold fmin; split; exacts [hb.2, ha.2]
  have w4 : Whole 25 (fmax a.y b.y) := by unfold fmax; split; exacts [hb.2, ha.2]
  unfold inBounds fp
  simp only [ge_iff_le]
  rw [hx, hx', hy, hy', whole_sub w2 w1 (by omega), whole_sub w4 w3 (by omega), fabs_fin, fabs_fin, fabs_eq, fabs_eq, decide_eq_decide.2 (le_fin _ _),
    decide_eq_decide.2 (le_fin _ _), decide_eq_decide.2 (le_fin _ _), decide_eq_decide.2 (le_fin _ _), decide_eq_decide.2 (le_fin _ _)]

theorem whole_ray {p a b : Pt ℚ} (hp : WholePt p) (ha : WholePt a) (hb : WholePt b) (hs : |b.x - a.x| ≤ 2 ^ 18 ∧ |b.y - a.y| ≤ 2 ^ 18) :
    rayCrosses (fp p) (fp a) (fp b) = rayCrosses p a b := by
  unfold rayCrosses fp
  simp only [gt_iff_lt]
  rw [decide_eq_decide.2 (lt_fin _ _), decide_eq_decide.2 (lt_fin _ _)]
  by_cases hg : (decide (p.y < a.y) != decide (p.y < b.y)) = true
  swap
  · rw [if_neg hg, if_neg hg]
  rw [if_pos hg, if_pos hg]
  have wd := hb.2.sub ha.2
  have wn := ((hb.1.sub ha.1).small hs.1).mul (hp.2.sub ha.2)
  have hd : b.y - a.y ≠ 0 := by
    intro h
    have : b.y = a.y := by linarith
    rw [this] at hg
    simp at hg
  rw [whole_sub hb.1 ha.1 (by omega), whole_sub hp.2 ha.2 (by omega), whole_sub hb.2 ha.2 (by omega),
    whole_mul ((hb.1.sub ha.1).small hs.1) (hp.2.sub ha.2) (by omega)]
  have hn := wn.abs_le
  have wd' := wd.small hs.2
  have wm := hp.1.sub ha.1
  have hpx : p.x = (p.x - a.x) + a.x := by ring
  generalize (b.x - a.x) * (p.y - a.y) = n at *
  generalize b.y - a.y = d at *
  unfold fdiv
  have hb0 : (fin d == (0 : Fl)) = false := by rw [zero_def, beq_fin, decide_eq_false_iff_not]; exact hd
  have hq0 : (d == 0) = false := by simpa using hd
  rw [hb0, hq0]
  simp only [Bool.false_eq_true, if_false, ok_bind]
  have hdabs : (1 : ℚ) ≤ |d| := by
    obtain ⟨k, rfl, -⟩ := wd'
    have : k ≠ 0 := by rintro rfl; simp at hd
    exact_mod_cast Int.one_le_abs this
  have hq : |n / d| ≤ 2 ^ 44 := by
    rw [abs_div]
    exact (div_le_self (abs_nonneg _) hdabs).trans hn
  rw [fin_div _ _ hd, rnd_fin (hq.trans (pow_le_big (by norm_num))), fin_add]
  have hsum : |rq (n / d) + a.x| ≤ 2 ^ 45 :=
    abs_add_le_pow (abs_rq_le hq) (ha.1.abs_le.trans (pow_le_pow_right₀ (by norm_num) (by norm_num)))
  rw [rnd_fin (hsum.trans (pow_le_big (by norm_num)))]
  congr 1
  apply decide_eq_decide.2
  rw [lt_fin]
  generalize hqd : n / d = q at *
  constructor
  · intro h
    by_contra hle
    have h3 : q ≤ p.x - a.x := by linarith
    have h4 := rq_mono h3
    rw [rq_of_isRep (wm.isRep (by omega))] at h4
    have h5 := rq_mono (show rq q + a.x ≤ p.x by linarith)
    rw [rq_of_isRep (hp.1.isRep (by omega))] at h5
    linarith
  · intro h
    have h3 : p.x - a.x + 1 / 2 ^ 18 ≤ q := by
      have e : q - (p.x - a.x) = (n - (p.x - a.x) * d) / d := by rw [← hqd]; field_simp
      have hpos : 0 < q - (p.x - a.x) := by linarith
      have w : ∃ k : Int, n - (p.x - a.x) * d = k := by
        obtain ⟨n', rfl, -⟩ := wn
        obtain ⟨m', e', -⟩ := wm
        obtain ⟨d', rfl, -⟩ := wd'
        exact ⟨n' - m' * d', by rw [e']; push_cast; ring⟩
      obtain ⟨k, hk⟩ := w
      rw [hk] at e
      have hk0 : k ≠ 0 := by
        rintro rfl
        rw [e] at hpos
        simp at hpos
      have : (1 : ℚ) / 2 ^ 18 ≤ |(k : ℚ) / d| := by
        rw [abs_div]
        refine div_le_div₀ (abs_nonneg _) ?_ (by linarith) wd'.abs_le
        exact_mod_cast Int.one_le_abs hk0
      rw [← e, abs_of_pos hpos] at this
      linarith
    have r1 : ∀ {z : ℚ} {n : Nat}, Whole n z → n ≤ 26 → IsRep (z + 1 / 2 ^ 18) := by
      rintro z n ⟨m, rfl, hm⟩ hn
      refine ⟨m * 2 ^ 18 + 1, -18, ?_, ?_, by norm_num⟩
      · rw [show ((2 : ℚ) ^ (-18 : Int)) = 1 / 2 ^ 18 by norm_num]
        push_cast
        ring
      · have h26 : |m| ≤ 2 ^ 26 := hm.trans (pow_le_pow_right₀ (by norm_num) hn)
        have := abs_le.1 h26
        rw [abs_lt]
        constructor <;> omega
    have h4 := rq_mono h3
    rw [rq_of_isRep (r1 wm (by omega))] at h4
    have h5 := rq_mono (show p.x + 1 / 2 ^ 18 ≤ rq q + a.x by linarith)
    rw [rq_of_isRep (r1 hp.1 (by omega))] at h5
    have : (0 : ℚ) < 1 / 2 ^ 18 := by norm_num
    linarith

theorem whole_eqv (a b : Pt ℚ) : (fp a).eqv (fp b) = a.eqv b := by
  unfold Pt.eqv fp
  simp only
  rw [beq_fin, beq_fin]
  rfl

/-- The square of the length of a side of positive length. -/
theorem whole_side {a b : Pt ℚ} (ha : WholePt a) (hb : WholePt b) (hs : |b.x - a.x| ≤ 2 ^ 18 ∧ |b.y - a.y| ≤ 2 ^ 18)
    (hne : b.eqv a = false) : lengthSquared (fp (toVector a b)) = fin (lengthSquared (toVector a b)) ∧
      Whole 37 (lengthSquared (toVector a b)) ∧ 1 ≤ lengthSquared (toVector a b) := by
  obtain ⟨-, w1, w2⟩ := whole_toVector ha hb
  obtain ⟨e, w⟩ := whole_lengthSquared (w1.small hs.1) (w2.small hs.2)
  refine ⟨e, w, ?_⟩
  unfold lengthSquared
  have n1 := mul_self_nonneg (toVector a b).x
  have n2 := mul_self_nonneg (toVector a b).y
  by_cases hx : (toVector a b).x = 0
  · by_cases hy : (toVector a b).y = 0
    · exfalso
      have ex : b.x = a.x := by unfold toVector at hx; simp only at hx; linarith
      have ey : b.y = a.y := by unfold toVector at hy; simp only at hy; linarith
      unfold Pt.eqv at hne
      rw [ex, ey] at hne
      simp at hne
    · have := w2.one_le hy
      linarith
  · have := w1.one_le hx
    linarith

section
variable {tol : ℚ} (h1 : 1 / 2 ^ 200 ≤ tol) (h2 : tol ≤ 1 / 2 ^ 20)
include h1 h2

theorem whole_near {p a b : Pt ℚ} (hp : WholePt p) (ha : WholePt a) (hb : WholePt b)
    (hs : |b.x - a.x| ≤ 2 ^ 18 ∧ |b.y - a.y| ≤ 2 ^ 18) (hne : b.eqv a = false) :
    withinPerpendicularDistance (cross (toVector (fp p) (fp a)) (toVector (fp p) (fp b))) (toVector (fp a) (fp b)) (fin tol) =
      withinPerpendicularDistance (cross (toVector p a) (toVector p b)) (toVector a b) tol := by
  obtain ⟨e1, u1, u2⟩ := whole_toVector hp ha
  obtain ⟨e2, v1, v2⟩ := whole_toVector hp hb
  obtain ⟨e3, -, -⟩ := whole_toVector ha hb
  obtain ⟨e4, wA⟩ := whole_cross u1 u2 v1 v2
  obtain ⟨e5, wL, hL⟩ := whole_side ha hb hs hne
  rw [e1, e2, e3, e4, whole_within h1 h2 wA wL hL e5, whole_within_q h1 h2 wA wL hL]

theorem whole_loop {p : Pt ℚ} (hp : WholePt p) (l : List (Pt ℚ)) (v0 : Pt ℚ) (hl : WholePoly (v0 :: l)) (c : Bool) :
    pointInPolygonOrOnEdgeLoop (fp p) (fin tol) (fp v0) (toVector (fp p) (fp v0)) (l.map fp) c =
      pointInPolygonOrOnEdgeLoop p tol v0 (toVector p v0) l c := by
  induction l generalizing v0 c with
  | nil => rfl
  | cons v1 rest ih =>
    have m0 : v0 ∈ v0 :: v1 :: rest := by simp
    have m1 : v1 ∈ v0 :: v1 :: rest := by simp
    have w0 := hl.corner v0 m0
    have w1 := hl.corner v1 m1
    have hs := hl.small v0 m0 v1 m1
    simp only [List.map_cons, pointInPolygonOrOnEdgeLoop, whole_eqv]
    have sub : ∀ {u : Pt ℚ}, u ∈ [v0, v1] → WholePoly (u :: rest) := by
      intro u hu
      have hmem : ∀ w ∈ u :: rest, w ∈ v0 :: v1 :: rest := by
        intro w hw
        simp only [List.mem_cons, List.not_mem_nil, or_false] at hw hu ⊢
        rcases hw with rfl | hw
        · rcases hu with rfl | rfl <;> simp
        · exact Or.inr (Or.inr hw)
      exact ⟨fun w hw => hl.corner w (hmem w hw), fun w hw w' hw' => hl.small w (hmem w hw) w' (hmem w' hw')⟩
    by_cases he : v1.eqv v0 = true
    · rw [if_pos he, if_pos he]
      exact ih v0 (sub (by simp)) c
    · rw [if_neg he, if_neg he, whole_near h1 h2 hp w0 w1 hs (by simpa using he), whole_inBounds w0 w1, whole_ray hp w0 w1 hs]
      split
      · rfl
      · congr 1
        funext cr
        exact ih v1 (sub (by simp)) _

/-- The test on points is exact for polygons with integer coordinates. -/
theorem whole_polygon {p : Pt ℚ} (hp : WholePt p) {l : List (Pt ℚ)} (hl : WholePoly l) :
    pointInPolygonOrOnEdge (fp p) (l.map fp) (fin tol) = pointInPolygonOrOnEdge p l tol := by
  unfold pointInPolygonOrOnEdge
  by_cases hne : l = []
  · subst hne; rfl
  · have hne' : l.map fp ≠ [] := by simpa using hne
    rw [rdI_last hne, rdI_last hne', ok_bind, ok_bind, List.getLast_map]
    refine whole_loop h1 h2 hp l _ ⟨?_, ?_⟩ false
    · intro w hw
      rcases List.mem_cons.1 hw with rfl | hw
      · exact hl.corner _ (List.getLast_mem hne)
      · exact hl.corner _ hw
    · have key : ∀ w ∈ l.getLast hne :: l, w ∈ l := by
        intro w hw
        rcases List.mem_cons.1 hw with rfl | hw
        · exact List.getLast_mem hne
        · exact hw
      exact fun u hu v hv => hl.small u (key u hu) v (key v hv)

theorem whole_pointOnEdge {p a b : Pt ℚ} (hp : WholePt p) (hl : WholePoly [a, b]) :
    pointOnEdge (fp p) ([a, b].map fp) (fin tol) = pointOnEdge p [a, b] tol := by
  have w0 := hl.corner a (by simp)
  have w1 := hl.corner b (by simp)
  have hs := hl.small a (by simp) b (by simp)
  unfold pointOnEdge
  simp only [List.map_cons, List.map_nil, rd, List.getElem?_cons_zero, List.getElem?_cons_succ, ok_bind, whole_eqv]
  by_cases he : b.eqv a = true
  · rw [if_pos he, if_pos he]
  · rw [if_neg he, if_neg he, whole_near h1 h2 hp w0 w1 hs (by simpa using he), whole_inBounds w0 w1]

end

theorem pointOnEdge_near (x p q : Pt ℚ) (tol : ℚ) : ∃ r, pointOnEdge x [p, q] tol = .ok r ∧ (r = true ↔ Near tol x (p, q)) := by
  unfold pointOnEdge
  rw [rd_of_some (show ([p, q] : List (Pt ℚ))[0]? = some p from rfl), ok_bind,
    rd_of_some (show ([p, q] : List (Pt ℚ))[1]? = some q from rfl), ok_bind]
  have heqv : q.eqv p = true ↔ p = q := by
    unfold Pt.eqv
    simp only [Bool.and_eq_true, beq_iff_eq]
    exact ⟨fun h => Pt.ext' h.1.symm h.2.symm, fun h => h ▸ ⟨rfl, rfl⟩⟩
  by_cases hpq : p = q
  · rw [if_pos (heqv.2 hpq)]
    refine ⟨false, rfl, by simp, fun h => (h.1 hpq).elim⟩
  · rw [if_neg (fun h => hpq (heqv.1 h))]
    exact ⟨_, rfl, near_iff tol x p q hpq⟩

end Celltree.Fl
