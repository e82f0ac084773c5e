import Verif.Proofs.BuildOk
import Verif.Proofs.FloatSeparate

/-!
# Construction in binary64
-/

set_option linter.unusedSectionVars false

namespace Celltree.Fl

theorem intCast_fl (i : Int) : ((i : Int) : Fl) = rnd (i : ℚ) := rfl

theorem half_fl : (half : Fl) = fin (1 / 2) := by decide +kernel

theorem fin_of_between {a b : ℚ} {x : Fl} (h1 : fin a ≤ x) (h2 : x ≤ fin b) : ∃ q, x = fin q ∧ a ≤ q ∧ q ≤ b := by
  cases x with
  | fin q => exact ⟨q, rfl, (le_fin _ _).1 h1, (le_fin _ _).1 h2⟩
  | nan => exact absurd h1 (by rw [le_def]; simp [Fl.le])
  | ninf => exact absurd h1 (by rw [le_def]; simp [Fl.le])
  | pinf => exact absurd h2 (by rw [le_def]; simp [Fl.le])

/-- The boxes have finite bounds up to `M`, and are wide and high compared to that. -/
def WideBoxes (M : ℚ) (coords : List (Box Fl)) : Prop :=
  ∀ b ∈ coords, ∀ dim, ∃ lo hi, b.lo dim = fin lo ∧ b.hi dim = fin hi ∧ |lo| ≤ M ∧ |hi| ≤ M ∧ lo + M / 2 ^ 48 ≤ hi

variable {P : BuildParams Fl} {M : ℚ}

theorem rangeOf_fl (hw : WideBoxes M P.coords) (hM : M ≤ 2 ^ 400) (hmax : P.env.floatMax = fin maxNat)
    (hmin : P.env.floatMin = fin (-maxNat)) (dim : Bool) {cells : List Nat} (hin : ∀ i ∈ cells, i < P.coords.length)
    (hne : cells ≠ []) :
    ∃ R L, rangeOf P dim cells = (fin R, fin L) ∧ -M ≤ R ∧ L ≤ M ∧
      ∀ j ∈ cells, ∀ b, P.coords[j]? = some b → ∃ lo hi, b.lo dim = fin lo ∧ b.hi dim = fin hi ∧ R ≤ lo ∧ hi ≤ L ∧
        lo + M / 2 ^ 48 ≤ hi ∧ |lo| ≤ M ∧ |hi| ≤ M := by
  have hbig : M ≤ maxNat := hM.trans (pow_le_big (by norm_num))
  have hnum : ∀ b ∈ P.coords, NumOrd.num (b.lo dim) ∧ NumOrd.num (b.hi dim) := by
    intro b hb
    obtain ⟨lo, hi, h1, h2, _⟩ := hw b hb dim
    rw [h1, h2]
    exact ⟨nofun, nofun⟩
  obtain ⟨_, _, _, _, h3, h4⟩ := boundsFold_valid P.coords dim cells P.env.floatMax P.env.floatMin (by rw [hmax]; exact nofun)
    (by rw [hmin]; exact nofun) hnum
  obtain ⟨t1, t2⟩ := boundsFold_tight P.coords dim cells P.env.floatMax P.env.floatMin
  obtain ⟨j, hj⟩ := List.exists_mem_of_ne_nil _ hne
  have hg := List.getElem?_eq_getElem (hin j hj)
  obtain ⟨lo, hi, e1, e2, b1, b2, b3⟩ := hw _ (List.getElem_mem (hin j hj)) dim
  have l1 : fin (-M) ≤ (rangeOf P dim cells).1 := by
    refine t2 _ (by rw [hmax, le_fin]; linarith [abs_nonneg lo]) fun i hi b hb => ?_
    obtain ⟨lo, hi, e1, e2, b1, _⟩ := hw b (List.mem_of_getElem? hb) dim
    rw [e1, le_fin]
    exact (abs_le.1 b1).1
  have l2 : (rangeOf P dim cells).2 ≤ fin M := by
    refine t1 _ (by rw [hmin, le_fin]; linarith [abs_nonneg lo]) fun i hi b hb => ?_
    obtain ⟨lo, hi, e1, e2, b1, b2, _⟩ := hw b (List.mem_of_getElem? hb) dim
    rw [e2, le_fin]
    exact (abs_le.1 b2).2
  have l3 := h3 j hj _ hg
  have l4 := h4 j hj _ hg
  change (rangeOf P dim cells).1 ≤ _ at l3
  change _ ≤ (rangeOf P dim cells).2 at l4
  rw [e1] at l3
  rw [e2] at l4
  obtain ⟨R, r1, r2, r3⟩ := fin_of_between l1 l3
  obtain ⟨L, r4, r5, r6⟩ := fin_of_between l4 l2
  refine ⟨R, L, Prod.ext r1 r4, r2, r6, fun i hi b hb => ?_⟩
  obtain ⟨lo, hi', e1, e2, b1, b2, b3⟩ := hw b (List.mem_of_getElem? hb) dim
  have k1 := h3 i hi _ hb
  have k2 := h4 i hi _ hb
  change (rangeOf P dim cells).1 ≤ _ at k1
  change _ ≤ (rangeOf P dim cells).2 at k2
  rw [r1, e1, le_fin] at k1
  rw [r4, e2, le_fin] at k2
  exact ⟨lo, hi', e1, e2, k1, k2, b3, b1, b2⟩

/-- The boundaries of the buckets. -/
def bound (l R : ℚ) (i : Nat) : ℚ := rq (rq ((i : ℚ) * l) + R)

theorem exists_bucket (g : Nat → ℚ) (n : Nat) (c : ℚ) (h1 : g 0 ≤ c) (h2 : c < g n) : ∃ i < n, g i ≤ c ∧ c < g (i + 1) := by
  induction n with
  | zero => exact absurd h1 (not_le.2 h2)
  | succ n ih =>
    by_cases h : c < g n
    · obtain ⟨i, hi, h3⟩ := ih h
      exact ⟨i, by omega, h3⟩
    · exact ⟨n, by omega, not_lt.1 h, h2⟩

theorem isRep_nat {n : Nat} (h : n < 2 ^ 53) : IsRep (n : ℚ) := by
  refine ⟨n, 0, by simp, ?_, by norm_num⟩
  rw [Nat.abs_cast]
  exact_mod_cast h

theorem rq_rel' {x : ℚ} (h : 1 / 2 ^ 1000 ≤ x) : (1 - u) * x ≤ rq x ∧ rq x ≤ (1 + u) * x := by
  have hx : 0 < x := lt_of_lt_of_le (by positivity) h
  have := rq_rel (x := x) (by rwa [abs_of_pos hx])
  rw [abs_of_pos hx, abs_le] at this
  constructor <;> linarith [this.1, this.2]

theorem inv_le_inv_pow {j k : Nat} (h : j ≤ k) : (1 : ℚ) / 2 ^ k ≤ 1 / 2 ^ j :=
  one_div_le_one_div_of_le (by positivity) (pow_le_pow_right₀ (by norm_num) h)

theorem len_facts {d : ℚ} {N : Nat} (h1 : 1 / 2 ^ 150 ≤ d) (h2 : d ≤ 2 ^ 401) (hN : 1 ≤ N) (hN' : N < 2 ^ 53) :
    0 < rq (rq d / N) ∧ rq (rq d / N) ≤ 2 ^ 401 ∧ (1 - 3 * u) * d ≤ rq (N * rq (rq d / N)) ∧ rq d ≤ 2 * (N * rq (rq d / N)) := by
  have hu := u_pos
  have hu' := u_le
  have hd : 0 < d := lt_of_lt_of_le (by positivity) h1
  have hNq : (1 : ℚ) ≤ N := by exact_mod_cast hN
  have hNq' : (N : ℚ) ≤ 2 ^ 53 := by exact_mod_cast hN'.le
  have hN0 : (0 : ℚ) < N := by linarith
  have a1 : 1 / 2 ^ 150 ≤ rq d := le_rq (isRep_two_pow_inv (by norm_num)) h1
  have a2 : rq d ≤ 2 ^ 401 := rq_le (isRep_two_pow _) h2
  have a3 := (rq_rel' (h1.trans' (inv_le_inv_pow (by norm_num)))).1
  have ha : 0 < rq d := lt_of_lt_of_le (by positivity) a1
  have b0 : (1 : ℚ) / 2 ^ 203 ≤ rq d / N := by
    rw [le_div_iff₀ hN0]
    refine le_trans ?_ a1
    calc (1 : ℚ) / 2 ^ 203 * N ≤ 1 / 2 ^ 203 * 2 ^ 53 := mul_le_mul_of_nonneg_left hNq' (by positivity)
      _ = 1 / 2 ^ 150 := by rw [show (203 : Nat) = 150 + 53 by norm_num, pow_add]; field_simp
  have b1 : 1 / 2 ^ 203 ≤ rq (rq d / N) := le_rq (isRep_two_pow_inv (by norm_num)) b0
  have b2 : rq (rq d / N) ≤ 2 ^ 401 := by
    refine rq_le (isRep_two_pow _) ?_
    rw [div_le_iff₀ hN0]
    have : (2 : ℚ) ^ 401 * 1 ≤ 2 ^ 401 * N := mul_le_mul_of_nonneg_left hNq (by positivity)
    rw [mul_one] at this
    exact a2.trans this
  have b3 := (rq_rel' (b0.trans' (inv_le_inv_pow (by norm_num)))).1
  have hl : 0 < rq (rq d / N) := lt_of_lt_of_le (by positivity) b1
  have c0 : (1 - u) * rq d ≤ N * rq (rq d / N) := by
    have := mul_le_mul_of_nonneg_left b3 hN0.le
    have e : (N : ℚ) * ((1 - u) * (rq d / N)) = (1 - u) * rq d := by field_simp
    linarith
  have c1 : 1 / 2 ^ 203 ≤ N * rq (rq d / N) := by
    have := mul_le_mul_of_nonneg_right hNq hl.le
    linarith
  have c2 := (rq_rel' (c1.trans' (inv_le_inv_pow (by norm_num)))).1
  refine ⟨hl, b2, ?_, by nlinarith⟩
  have hu1 : 0 ≤ 1 - u := by linarith
  calc (1 - 3 * u) * d ≤ (1 - u) * ((1 - u) * ((1 - u) * d)) := by
        have : (1 - u) * ((1 - u) * ((1 - u) * d)) - (1 - 3 * u) * d = u * u * (3 - u) * d := by ring
        have h : 0 ≤ u * u * (3 - u) * d := by
          have : 0 ≤ 3 - u := by linarith
          positivity
        linarith
    _ ≤ (1 - u) * ((1 - u) * rq d) := mul_le_mul_of_nonneg_left (mul_le_mul_of_nonneg_left a3 hu1) hu1
    _ ≤ (1 - u) * (N * rq (rq d / N)) := mul_le_mul_of_nonneg_left c0 hu1
    _ ≤ _ := c2

/-- The last boundary is right of the middle of a box. -/
theorem centre_lt {M R L lo hi : ℚ} {N : Nat} (hM : 1 / 2 ^ 100 ≤ M) (hM' : M ≤ 2 ^ 400) (hR : -M ≤ R) (hL : L ≤ M)
    (hlo : R ≤ lo) (hhi : hi ≤ L) (hw : lo + M / 2 ^ 48 ≤ hi) (hN : 1 ≤ N) (hN' : N < 2 ^ 53) :
    rq (lo + rq (1 / 2 * rq (hi - lo))) < bound (rq (rq (L - R) / N)) R N := by
  have hu := u_pos
  have hu' := u_le
  have he := eta_pos
  have hM0 : 0 < M := lt_of_lt_of_le (by positivity) hM
  have hM32 : M / 2 ^ 48 = 32 * (u * M) := by unfold u; ring
  have huM : 0 < u * M := mul_pos hu hM0
  have hsmall : 1 / 2 ^ 149 ≤ M / 2 ^ 48 := by
    refine le_trans ?_ (div_le_div_of_nonneg_right hM (by positivity))
    rw [div_div, ← pow_add]
    exact inv_le_inv_pow (by norm_num)
  have hd1 : 1 / 2 ^ 150 ≤ L - R := by
    have := inv_le_inv_pow (j := 149) (k := 150) (by norm_num)
    linarith only [hsmall, this, hw, hlo, hhi]
  have hd2 : L - R ≤ 2 ^ 401 := by
    rw [show (401 : Nat) = 400 + 1 by norm_num, pow_succ]
    generalize (2 : ℚ) ^ 400 = T at hM' ⊢
    linarith only [hM', hR, hL]
  obtain ⟨_, _, f3, _⟩ := len_facts hd1 hd2 hN hN'
  have hetaM : eta ≤ u * M / 100 := by
    have := tiny_lt (N := 1) hM (by simpa using inv_le_inv_pow (Nat.zero_le 900))
    linarith only [this]
  -- the last boundary
  have g1 : L - 6 * (u * M) ≤ rq (N * rq (rq (L - R) / N)) + R := by
    have h1 : u * (L - R) ≤ u * (2 * M) := mul_le_mul_of_nonneg_left (by linarith) hu.le
    linarith only [f3, h1]
  have g2 := rq_mono g1
  have g3 := (abs_le.1 (rq_err_add (L - 6 * (u * M)))).1
  have g4 : |L - 6 * (u * M)| ≤ 2 * M := by
    rw [abs_le]
    have : u * M ≤ 1 / 1000000 * M := mul_le_mul_of_nonneg_right hu' hM0.le
    constructor <;> linarith only [hM0, hR, hL, hlo, hhi, hw, hM32, huM, this]
  have g5 := mul_le_mul_of_nonneg_left g4 hu.le
  -- the middle of the box
  have w1 : 1 / 2 ^ 149 ≤ hi - lo := by linarith only [hsmall, hw]
  have w2 := (rq_rel' (w1.trans' (inv_le_inv_pow (by norm_num)))).2
  have w3 : 1 / 2 ^ 149 ≤ rq (hi - lo) := le_rq (isRep_two_pow_inv (by norm_num)) w1
  have w4 : 1 / 2 ^ 150 ≤ 1 / 2 * rq (hi - lo) := by
    have : (1 : ℚ) / 2 ^ 150 = 1 / 2 * (1 / 2 ^ 149) := by rw [pow_succ]; field_simp
    rw [this]
    exact mul_le_mul_of_nonneg_left w3 (by norm_num)
  have w5 := (rq_rel' (w4.trans' (inv_le_inv_pow (by norm_num)))).2
  have w6 : rq (1 / 2 * rq (hi - lo)) ≤ (hi - lo) / 2 + 3 * (u * M) := by
    have h1 : (1 + u) * (1 / 2 * rq (hi - lo)) ≤ (1 + u) * (1 / 2 * ((1 + u) * (hi - lo))) :=
      mul_le_mul_of_nonneg_left (mul_le_mul_of_nonneg_left w2 (by norm_num)) (by linarith)
    have h2 : (1 + u) * (1 / 2 * ((1 + u) * (hi - lo))) = (hi - lo) / 2 + (2 + u) / 2 * (u * (hi - lo)) := by ring
    have h3 : u * (hi - lo) ≤ u * (2 * M) := mul_le_mul_of_nonneg_left (by linarith) hu.le
    have h4 : (2 + u) / 2 * (u * (hi - lo)) ≤ 3 / 2 * (u * (2 * M)) :=
      mul_le_mul (by linarith) h3 (by have : 0 < hi - lo := lt_of_lt_of_le (by positivity) w1
                                      positivity) (by norm_num)
    linarith only [w5, h1, h2, h4]
  have c1 : lo + rq (1 / 2 * rq (hi - lo)) ≤ (lo + hi) / 2 + 3 * (u * M) := by linarith only [w6]
  have c2 := rq_mono c1
  have c3 := (abs_le.1 (rq_err_add ((lo + hi) / 2 + 3 * (u * M)))).2
  have c4 : |(lo + hi) / 2 + 3 * (u * M)| ≤ 2 * M := by
    rw [abs_le]
    have : u * M ≤ 1 / 1000000 * M := mul_le_mul_of_nonneg_right hu' hM0.le
    constructor <;> linarith only [hM0, hR, hL, hlo, hhi, hw, hM32, huM, this]
  have c5 := mul_le_mul_of_nonneg_left c4 hu.le
  unfold bound
  have e1 : u * (2 * M) = 2 * (u * M) := by ring
  rw [e1] at g5 c5
  generalize rq (rq (N * rq (rq (L - R) / N)) + R) = X at *
  generalize rq (lo + rq (1 / 2 * rq (hi - lo))) = Y at *
  linarith only [g2, g3, g5, c2, c3, c5, hetaM, hw, hhi, hM32, huM]

theorem abs_le_of {a : ℚ} {k : Nat} (h1 : 0 ≤ a) (h2 : a ≤ 2 ^ k) : |a| ≤ 2 ^ k := by
  rwa [abs_of_nonneg h1]

theorem abs_le_of_le {a b : ℚ} {k : Nat} (h1 : 0 ≤ a) (h2 : a ≤ b) (h3 : b ≤ 2 ^ k) : |a| ≤ 2 ^ k := by
  rw [abs_of_nonneg h1]; exact h2.trans h3

/-- Construction does not fail in binary64 if the boxes are not too thin. -/
theorem not_buildErr_fl (hb : 2 ≤ P.nBuckets) (hb' : P.nBuckets < 2 ^ 53) (hlen : P.coords.length ≤ 2 ^ 63)
    (hw : WideBoxes M P.coords) (hM : 1 / 2 ^ 100 ≤ M) (hM' : M ≤ 2 ^ 400) (hmax : P.env.floatMax = fin maxNat)
    (hmin : P.env.floatMin = fin (-maxNat)) {e : Err} : ¬ BuildErr P e := by
  have hu := u_pos
  have hM0 : 0 < M := lt_of_lt_of_le (by positivity) hM
  have hNcast : ∀ i : Nat, i < 2 ^ 53 → (((i : Nat) : Int) : Fl) = fin (i : ℚ) := by
    intro i hi
    rw [intCast_fl, Int.cast_natCast, rnd_fin, rq_of_isRep (isRep_nat hi)]
    rw [Nat.abs_cast]
    have h1 : (i : ℚ) ≤ 2 ^ 53 := by exact_mod_cast hi.le
    exact h1.trans (pow_le_big (by norm_num))
  have hN0 : (0 : ℚ) < (P.nBuckets : ℚ) := by exact_mod_cast (by omega : 0 < P.nBuckets)
  -- the width of the range of a node
  have hrange : ∀ (dim : Bool) (cells : List Nat), (∀ i ∈ cells, i < P.coords.length) → cells ≠ [] →
      ∃ R L, rangeOf P dim cells = (fin R, fin L) ∧ -M ≤ R ∧ L ≤ M ∧ 1 / 2 ^ 150 ≤ L - R ∧ L - R ≤ 2 ^ 401 ∧
        bucketLen P dim cells = fin (rq (rq (L - R) / P.nBuckets)) ∧
        ∀ j ∈ cells, ∀ b, P.coords[j]? = some b → ∃ lo hi, b.lo dim = fin lo ∧ b.hi dim = fin hi ∧ R ≤ lo ∧ hi ≤ L ∧
          lo + M / 2 ^ 48 ≤ hi ∧ |lo| ≤ M ∧ |hi| ≤ M := by
    intro dim cells hin hne
    obtain ⟨R, L, h1, h2, h3, h4⟩ := rangeOf_fl hw hM' hmax hmin dim hin hne
    obtain ⟨j, hj⟩ := List.exists_mem_of_ne_nil _ hne
    obtain ⟨lo, hi, _, _, g1, g2, g3, _⟩ := h4 j hj _ (List.getElem?_eq_getElem (hin j hj))
    have hd1 : 1 / 2 ^ 150 ≤ L - R := by
      have k1 : (1 : ℚ) / 2 ^ 148 ≤ M / 2 ^ 48 := by
        refine le_trans ?_ (div_le_div_of_nonneg_right hM (by positivity))
        rw [div_div, ← pow_add]
      have := inv_le_inv_pow (j := 148) (k := 150) (by norm_num)
      linarith only [k1, this, g1, g2, g3]
    have hd2 : L - R ≤ 2 ^ 401 := by
      rw [show (401 : Nat) = 400 + 1 by norm_num, pow_succ]
      generalize (2 : ℚ) ^ 400 = T at hM' ⊢
      linarith only [hM', h2, h3]
    refine ⟨R, L, h1, h2, h3, hd1, hd2, ?_, h4⟩
    have hd0 : 0 ≤ L - R := le_trans (by positivity) hd1
    unfold bucketLen
    rw [h1, hNcast _ hb']
    simp only
    rw [sub_fin (k := 401) (by norm_num) (abs_le_of hd0 hd2), div_fin (k := 401) hN0.ne' (by norm_num)]
    have n1 : (1 : ℚ) ≤ (P.nBuckets : ℚ) := by exact_mod_cast (by omega : 1 ≤ P.nBuckets)
    have n2 := rq_nonneg hd0
    refine abs_le_of_le (div_nonneg n2 hN0.le) (div_le_self n2 n1) (rq_le (isRep_two_pow _) hd2)
  intro h
  cases h with
  | bucketsZero h =>
    rw [hNcast _ hb', zero_def, beq_fin] at h
    exact hN0.ne' (of_decide_eq_true h)
  | noBuckets h => omega
  | lengthZero dim cells hin hne h =>
    obtain ⟨R, L, _, _, _, h4, h5, h6, _⟩ := hrange dim cells hin hne
    rw [h6, zero_def, beq_fin] at h
    exact (len_facts h4 h5 (by omega) hb').1.ne' (of_decide_eq_true h)
  | noBucket dim cells j hin hj hno =>
    obtain ⟨R, L, h1, h2, h3, h4, h5, h6, h7⟩ := hrange dim cells hin (List.ne_nil_of_mem hj)
    obtain ⟨b, hg⟩ : ∃ b, P.coords[j]? = some b := ⟨_, List.getElem?_eq_getElem (hin j hj)⟩
    obtain ⟨lo, hi, e1, e2, g1, g2, g3, g4, g5⟩ := h7 j hj _ hg
    obtain ⟨f1, f2, f3, f4⟩ := len_facts h4 h5 (by omega : 1 ≤ P.nBuckets) hb'
    have w0 : 0 ≤ hi - lo := by
      have : 0 < M / 2 ^ 48 := by positivity
      linarith only [this, g3]
    have w1 : hi - lo ≤ 2 ^ 401 := by linarith only [g1, g2, h5]
    have w2 : rq (hi - lo) ≤ 2 ^ 401 := rq_le (isRep_two_pow _) w1
    have w3 := rq_nonneg w0
    have w4 : 1 / 2 * rq (hi - lo) ≤ 2 ^ 401 := (by linarith only [w3] : 1 / 2 * rq (hi - lo) ≤ rq (hi - lo)).trans w2
    have w5 : (0 : ℚ) ≤ 1 / 2 * rq (hi - lo) := by linarith only [w3]
    have w6 := rq_nonneg w5
    have b400 : ∀ {x : ℚ}, |x| ≤ M → |x| ≤ 2 ^ 401 := by
      intro x h
      exact abs_le_pow_mono (by norm_num) (h.trans hM')
    have hc : b.lo dim + half * (b.hi dim - b.lo dim) =
        fin (rq (lo + rq (1 / 2 * rq (hi - lo)))) := by
      rw [e1, e2, half_fl, sub_fin (k := 401) (by norm_num) (abs_le_of w0 w1),
        mul_fin (k := 401) (by norm_num) (abs_le_of w5 w4),
        add_fin (k := 402) (by norm_num) (abs_add_le_pow (b400 g4) (abs_rq_le (abs_le_of w5 w4)))]
    have hR : |R| ≤ 2 ^ 454 := by
      have : |R| ≤ M := by
        rw [abs_le]
        exact ⟨h2, g1.trans (abs_le.1 g4).2⟩
      exact abs_le_pow_mono (by norm_num) (this.trans hM')
    have hbd : ∀ i : Nat, i ≤ P.nBuckets → (((i : Nat) : Int) : Fl) * bucketLen P dim cells + (rangeOf P dim cells).1 =
        fin (bound (rq (rq (L - R) / P.nBuckets)) R i) := by
      intro i hi
      have k1 : |(i : ℚ)| ≤ 2 ^ 53 := by
        rw [Nat.abs_cast]; exact_mod_cast (by omega : i ≤ 2 ^ 53)
      have k2 := abs_mul_le_pow k1 (abs_le_of f1.le f2)
      rw [hNcast i (by omega), h6, h1, mul_fin (k := 454) (by norm_num) k2]
      simp only
      rw [add_fin (k := 455) (by norm_num) (abs_add_le_pow (abs_rq_le k2) hR)]
      rfl
    obtain ⟨i, hi', k1, k2⟩ := exists_bucket (bound (rq (rq (L - R) / P.nBuckets)) R) P.nBuckets
      (rq (lo + rq (1 / 2 * rq (hi - lo)))) (by
        unfold bound
        rw [Nat.cast_zero, zero_mul, rq_zero, zero_add]
        exact rq_mono (by linarith only [g1, w6]))
      (centre_lt hM hM' h2 h3 g1 g2 g3 (by omega) hb')
    refine hno i hi' ⟨_, hg, ?_, ?_⟩
    · rw [hc, hbd i hi'.le, ge_iff_le, le_fin]; exact k1
    · rw [hc, hbd (i + 1) hi', lt_fin]; exact k2
  | noPlane dim cells left right m hin hle hl hr hsl hsr hm h =>
    apply h
    have hne : cells ≠ [] := by
      obtain ⟨j, hj⟩ := List.exists_mem_of_ne_nil _ hl
      exact List.ne_nil_of_mem (hsl j hj)
    obtain ⟨R, L, h1, h2, h3, h4, h5, h6, h7⟩ := hrange dim cells hin hne
    obtain ⟨Rl, Ll, l1, _, _, _, _, _, l7⟩ := hrange dim left (fun i hi => hin i (hsl i hi)) hl
    obtain ⟨Rr, Lr, r1, _, _, _, _, _, r7⟩ := hrange dim right (fun i hi => hin i (hsr i hi)) hr
    obtain ⟨f1, f2, f3, f4⟩ := len_facts h4 h5 (by omega : 1 ≤ P.nBuckets) hb'
    -- the ranges of the parts are in the range of the node
    obtain ⟨t1, _⟩ := boundsFold_tight P.coords dim left P.env.floatMax P.env.floatMin
    obtain ⟨_, t2⟩ := boundsFold_tight P.coords dim right P.env.floatMax P.env.floatMin
    have hbig : M ≤ maxNat := hM'.trans (pow_le_big (by norm_num))
    have d0 : 0 < L - R := lt_of_lt_of_le (by positivity) h4
    have b1 : Ll ≤ L := by
      have := t1 (fin L) (by rw [hmin, le_fin]; linarith only [hbig, h2, d0]) fun i hi b hb => by
        obtain ⟨lo, hi', e1, e2, _, g2, _⟩ := h7 i (hsl i hi) b hb
        rw [e2, le_fin]; exact g2
      change (rangeOf P dim left).2 ≤ _ at this
      rw [l1] at this
      exact (le_fin _ _).1 this
    have b2 : R ≤ Rr := by
      have := t2 (fin R) (by rw [hmax, le_fin]; linarith only [hbig, h3, d0]) fun i hi b hb => by
        obtain ⟨lo, hi', e1, e2, g1, _⟩ := h7 i (hsr i hi) b hb
        rw [e1, le_fin]; exact g1
      change _ ≤ (rangeOf P dim right).1 at this
      rw [r1] at this
      exact (le_fin _ _).1 this
    have hw0 : 0 < M / 2 ^ 48 := by positivity
    have b3 : 0 ≤ Ll - R := by
      obtain ⟨j, hj⟩ := List.exists_mem_of_ne_nil _ hl
      have hg := List.getElem?_eq_getElem (hin j (hsl j hj))
      obtain ⟨lo, hi, e1, e2, _, g2, g3, _⟩ := l7 j hj _ hg
      obtain ⟨lo', hi', e1', e2', g1', _⟩ := h7 j (hsl j hj) _ hg
      rw [e1] at e1'
      cases e1'
      linarith only [g2, g3, g1', hw0]
    have b4 : 0 ≤ L - Rr := by
      obtain ⟨j, hj⟩ := List.exists_mem_of_ne_nil _ hr
      have hg := List.getElem?_eq_getElem (hin j (hsr j hj))
      obtain ⟨lo, hi, e1, e2, g1, _, g3, _⟩ := r7 j hj _ hg
      obtain ⟨lo', hi', e1', e2', _, g2', _⟩ := h7 j (hsr j hj) _ hg
      rw [e2] at e2'
      cases e2'
      linarith only [g1, g3, g2', hw0]
    have hcost : ∀ {x : ℚ} {k : Int}, 0 ≤ x → x ≤ L - R → |k| ≤ 2 ^ 63 → ∃ y, rnd x / fin (rq (rq (L - R) / P.nBuckets)) *
        (k : Fl) = fin y ∧ |y| ≤ 2 ^ 117 := by
      intro x k x0 x1 hk
      have k1 : |(k : ℚ)| ≤ 2 ^ 63 := by
        rw [← Int.cast_abs]; exact_mod_cast hk
      have k2 := (x1.trans h5)
      have q1 : rq x / rq (rq (L - R) / P.nBuckets) ≤ 2 ^ 54 := by
        rw [div_le_iff₀ f1]
        have n1 : (P.nBuckets : ℚ) ≤ 2 ^ 53 := by exact_mod_cast hb'.le
        have n2 := mul_le_mul_of_nonneg_right n1 f1.le
        have n3 := rq_mono x1
        have e : (2 : ℚ) ^ 54 = 2 * 2 ^ 53 := by norm_num
        rw [e, mul_assoc]
        linarith only [n2, n3, f4]
      have q0 : 0 ≤ rq x / rq (rq (L - R) / P.nBuckets) := div_nonneg (rq_nonneg x0) f1.le
      have q2 := abs_le_of q0 q1
      have m1 := abs_mul_le_pow (abs_rq_le q2) (abs_rq_le k1)
      refine ⟨_, ?_, abs_rq_le m1⟩
      rw [rnd_fin ((abs_le_of x0 k2).trans (pow_le_big (by norm_num))), div_fin (k := 54) f1.ne' (by norm_num) q2,
        intCast_fl, rnd_fin (k1.trans (pow_le_big (by norm_num))), mul_fin (k := 117) (by norm_num) m1]
    rw [h1, l1, r1, h6]
    simp only
    have hk1 : |(m : Int)| ≤ 2 ^ 63 := by
      rw [Nat.abs_cast]; exact_mod_cast (by omega : m ≤ 2 ^ 63)
    have hk2 : |(cells.length : Int) - (m : Int)| ≤ 2 ^ 63 := by
      rw [abs_of_nonneg (by omega)]; omega
    obtain ⟨y1, c1, c2⟩ := hcost b3 (by linarith only [b1]) hk1
    obtain ⟨y2, c3, c4⟩ := hcost b4 (by linarith only [b2]) hk2
    rw [fin_sub, fin_sub, c1, c3, add_fin (k := 118) (by norm_num) (abs_add_le_pow c2 c4), hmax, lt_fin]
    refine lt_of_le_of_lt (le_abs_self _) (lt_of_le_of_lt (abs_rq_le (abs_add_le_pow c2 c4)) ?_)
    exact lt_of_lt_of_le (pow_lt_pow_right₀ (by norm_num) (by norm_num : 117 + 1 < 1000)) big_le

end Celltree.Fl
