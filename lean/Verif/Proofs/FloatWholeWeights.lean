import Verif.Proofs.FloatEdgeCase
import Verif.Proofs.FloatWhole
import Verif.Proofs.FloatWholeClip

/-!
# Integer coordinates: the interpolation weights of polygons in binary64
-/

set_option linter.unusedSectionVars false

namespace Celltree.Fl

/-! ## The square root is monotone -/

theorem sqrt_half {x : ℚ} (hx : 0 ≤ x) : ∃ (s : Nat) (T : ℚ), (s : ℚ) * s ≤ x * 2 ^ 1200 ∧ x * 2 ^ 1200 < ((s : ℚ) + 1) * (s + 1) ∧
    env.sqrt (fin x) = Fl.rnd T ∧ (((s : ℚ) * s = x * 2 ^ 1200 ∧ T = (s : ℚ) / 2 ^ 600) ∨
      ((s : ℚ) * s ≠ x * 2 ^ 1200 ∧ T = (2 * (s : ℚ) + 1) / (2 * 2 ^ 600))) := by
  have hX : 0 ≤ x * 2 ^ 1200 := mul_nonneg hx (by positivity)
  obtain ⟨b1, b2⟩ := nat_sqrt_bounds hX
  set s := Nat.sqrt (x * 2 ^ 1200).floor.toNat with hs
  have hdef : env.sqrt (fin x) = Fl.rnd (if (s * s : ℚ) = x * 2 ^ 1200 then mkRat s (2 ^ 600) else mkRat (2 * s + 1) (2 ^ 601)) := by
    change (if x < 0 then nan else _) = _
    rw [if_neg (not_lt.2 hx)]
  refine ⟨s, _, b1, b2, hdef, ?_⟩
  clear hdef
  split
  · rename_i g
    left
    refine ⟨g, ?_⟩
    rw [Rat.mkRat_eq_div, Nat.cast_pow]
    rfl
  · rename_i g
    right
    refine ⟨g, ?_⟩
    rw [Rat.mkRat_eq_div, Nat.cast_pow, ← pow_succ']
    push_cast
    rfl

theorem half_mono {P X Y T T' : ℚ} {s s' : Nat} (hP : 0 < P) (h : X ≤ Y) (a1 : (s : ℚ) * s ≤ X) (b2 : Y < ((s' : ℚ) + 1) * (s' + 1))
    (hT : ((s : ℚ) * s = X ∧ T = (s : ℚ) / P) ∨ ((s : ℚ) * s ≠ X ∧ T = (2 * (s : ℚ) + 1) / (2 * P)))
    (hT' : ((s' : ℚ) * s' = Y ∧ T' = (s' : ℚ) / P) ∨ ((s' : ℚ) * s' ≠ Y ∧ T' = (2 * (s' : ℚ) + 1) / (2 * P))) : T ≤ T' := by
  have hss : s ≤ s' := by
    by_contra hc
    have hc' : (s' : ℚ) + 1 ≤ s := by exact_mod_cast not_le.1 hc
    have := mul_le_mul hc' hc' (by positivity) (by positivity)
    linarith
  have e : ∀ z : ℚ, z / P = (2 * z) / (2 * P) := fun z => (mul_div_mul_left z P two_ne_zero).symm
  rw [e] at hT hT'
  have hs0 : (s : ℚ) ≤ s' := by exact_mod_cast hss
  rcases hss.lt_or_eq with g | g
  · have g' : (s : ℚ) + 1 ≤ s' := by exact_mod_cast g
    rcases hT with ⟨-, rfl⟩ | ⟨-, rfl⟩ <;> rcases hT' with ⟨-, rfl⟩ | ⟨-, rfl⟩ <;>
      exact div_le_div_of_nonneg_right (by linarith) (by linarith)
  · subst g
    rcases hT with ⟨g1, rfl⟩ | ⟨g1, rfl⟩ <;> rcases hT' with ⟨g2, rfl⟩ | ⟨g2, rfl⟩
    · exact le_rfl
    · exact div_le_div_of_nonneg_right (by linarith) (by linarith)
    · exact (g1 (le_antisymm a1 (by linarith))).elim
    · exact le_rfl

theorem rnd_eq_fin {q r : ℚ} (h : Fl.rnd q = fin r) : r = rq q := by
  rw [rnd_eq] at h
  split at h
  · exact (Fl.fin.inj h).symm
  · split at h <;> cases h

theorem sqrt_mono {x y : ℚ} (hx : 0 ≤ x) (hxy : x ≤ y) (hb : y ≤ 2 ^ 900) :
    ∃ r r', env.sqrt (fin x) = fin r ∧ env.sqrt (fin y) = fin r' ∧ 0 ≤ r ∧ r ≤ r' := by
  have hy := hx.trans hxy
  obtain ⟨r, e1, r0, -⟩ := sqrt_fl hx (hxy.trans hb)
  obtain ⟨r', e2, -⟩ := sqrt_fl hy hb
  refine ⟨r, r', e1, e2, r0, ?_⟩
  obtain ⟨s, T, a1, a2, ea, hT⟩ := sqrt_half hx
  obtain ⟨s', T', b1, b2, eb, hT'⟩ := sqrt_half hy
  have hm := half_mono (P := 2 ^ 600) (by positivity) (mul_le_mul_of_nonneg_right hxy (by positivity)) a1 b2 hT hT'
  rw [e1] at ea
  rw [e2] at eb
  rw [rnd_eq_fin ea.symm, rnd_eq_fin eb.symm]
  exact rq_mono hm

/-! ## The ratio of two lengths on a line -/

theorem rq_one : rq 1 = 1 := by
  have := rq_of_isRep (isRep_two_pow 0)
  rwa [pow_zero] at this

theorem abs_mul_self_mono {v w : ℚ} (h : |v| ≤ |w|) : rq (rq v * rq v) ≤ rq (rq w * rq w) := by
  apply rq_mono
  have := rq_mono h
  rw [← abs_rq, ← abs_rq] at this
  rw [← abs_mul_abs_self (rq v), ← abs_mul_abs_self (rq w)]
  exact mul_le_mul this this (abs_nonneg _) (abs_nonneg _)

/-- The ratio that is used for a point on a side: between zero and one, and exact at the ends. -/
theorem ratio_exact {ux uy t : ℚ} (hx : |ux| ≤ 2 ^ 200) (hy : |uy| ≤ 2 ^ 200) (hL : 1 / 2 ^ 160 ≤ |ux| ∨ 1 / 2 ^ 160 ≤ |uy|)
    (h0 : 0 ≤ t) (h1 : t ≤ 1) :
    ∃ w, fdiv (env.sqrt (fin (lsqR (t * ux) (t * uy)))) (env.sqrt (fin (lsqR ux uy))) = .ok (fin w) ∧ 0 ≤ w ∧ w ≤ 1 ∧
      |w - t| ≤ 64 * u ∧ (t = 0 → w = 0) ∧ (t = 1 → w = 1) := by
  have hle : ∀ z : ℚ, |t * z| ≤ |z| := by
    intro z
    rw [abs_mul, abs_of_nonneg h0]
    exact mul_le_of_le_one_left (abs_nonneg _) h1
  obtain ⟨w, w1, w2, w3, w4⟩ := ratio_fl (vx := t * ux) (vy := t * uy) (t := t) (ν := 0) hx hy hL ((hle ux).trans hx) ((hle uy).trans hy)
    (by ring) le_rfl (by rw [abs_of_nonneg h0]; linarith) (by norm_num)
  rw [abs_of_nonneg h0] at w3 w4
  have hm : lsqR (t * ux) (t * uy) ≤ lsqR ux uy := rq_mono (add_le_add (abs_mul_self_mono (hle ux)) (abs_mul_self_mono (hle uy)))
  have hY0 : 0 ≤ lsqR (t * ux) (t * uy) := rq_nonneg (add_nonneg (rq_nonneg (mul_self_nonneg _)) (rq_nonneg (mul_self_nonneg _)))
  obtain ⟨ρ, ρ1, ρ2, -⟩ := len_fl hx hy hL
  have hρ0 : 0 < ρ := lt_of_lt_of_le (by positivity) ρ2
  have hY900 : lsqR ux uy ≤ 2 ^ 900 := by
    have a1 := abs_rq_le (abs_mul_le_pow (abs_rq_le hx) (abs_rq_le hx))
    have a2 := abs_rq_le (abs_mul_le_pow (abs_rq_le hy) (abs_rq_le hy))
    have a3 := abs_rq_le (abs_add_le_pow a1 a2)
    exact (le_abs_self _).trans (a3.trans (pow_le_pow_right₀ (by norm_num) (by norm_num)))
  obtain ⟨r, r', e1, e2, e3, e4⟩ := sqrt_mono hY0 hm hY900
  obtain rfl : r' = ρ := Fl.fin.inj (e2.symm.trans ρ1)
  have hq : r / r' ≤ 1 := (div_le_one hρ0).2 e4
  have hq0 : 0 ≤ r / r' := div_nonneg e3 hρ0.le
  have hw : w = rq (r / r') := by
    have := fdiv_fin (k := 2) hρ0.ne' (by norm_num) (show |r / r'| ≤ 2 ^ 2 by rw [abs_of_nonneg hq0]; linarith)
    rw [e1, e2, this] at w1
    exact (Fl.fin.inj (Except.ok.inj w1)).symm
  refine ⟨w, w1, w2, ?_, abs_le.2 ⟨by linarith, by linarith⟩, ?_, ?_⟩
  · rw [hw]
    have := rq_mono hq
    rwa [rq_one] at this
  · intro ht
    have : lsqR (t * ux) (t * uy) = 0 := by
      rw [ht]; unfold lsqR; simp [rq_zero]
    rw [this] at e1
    have e0 : env.sqrt (fin 0) = fin 0 := by decide +kernel
    rw [e0] at e1
    rw [hw, ← Fl.fin.inj e1, zero_div, rq_zero]
  · intro ht
    have : r = r' := by
      rw [ht, one_mul, one_mul] at e1
      exact Fl.fin.inj (e1.symm.trans e2)
    rw [hw, this, div_self hρ0.ne', rq_one]

/-! ## A stored face -/

/-- A strictly convex face with integer coordinates, in the order stored; `σ` is one if it is counter-clockwise and minus one
otherwise. -/
structure WholeStored (D : ℚ) {l : List (Pt ℚ)} (h : 0 < l.length) (σ : ℚ) : Prop where
  three : 3 ≤ l.length
  many : (l.length : ℚ) ≤ 2 ^ 20
  sign : σ * σ = 1
  whole : ∀ k, WholePt (corner l h k)
  near : ∀ i j, |(corner l h i).x - (corner l h j).x| ≤ D ∧ |(corner l h i).y - (corner l h j).y| ≤ D
  size : D ≤ 2 ^ 18
  ne : ∀ k, prevCorner h k ≠ prevCorner h (k + 1)
  turn : ∀ k, 0 < sideOr h σ k (prevCorner h (k + 2))
  nonneg : ∀ k i, 0 ≤ sideOr h σ k (corner l h i)
  line : ∀ k i, sideOr h σ k (corner l h i) = 0 → corner l h i = prevCorner h k ∨ corner l h i = prevCorner h (k + 1)
  nodup : l.Nodup

/-- Twice the area of the triangle of side `k` and the point. -/
def wArea {l : List (Pt ℚ)} (h : 0 < l.length) (p : Pt ℚ) (k : Nat) : ℚ := |orient (prevCorner h k) (prevCorner h (k + 1)) p|

/-- Twice the area of the triangle at corner `k`. -/
def wCorner {l : List (Pt ℚ)} (h : 0 < l.length) (k : Nat) : ℚ := |orient (prevCorner h k) (prevCorner h (k + 1)) (prevCorner h (k + 2))|

/-- The computed weight of corner `k` before normalisation. -/
def wWeight {l : List (Pt ℚ)} (h : 0 < l.length) (p : Pt ℚ) (k : Nat) : ℚ :=
  rq (rq (2 * wCorner h k) / rq (wArea h p k * wArea h p (k + 1)))

/-- The computed sum of the weights of the corners before corner `k`. -/
def wSum {l : List (Pt ℚ)} (h : 0 < l.length) (p : Pt ℚ) : Nat → ℚ
  | 0 => 0
  | k + 1 => rq (wSum h p k + wWeight h p k)

variable {D tol σ : ℚ} {l : List (Pt ℚ)} {h : 0 < l.length}

theorem whole_orient {a b p : Pt ℚ} (ha : WholePt a) (hb : WholePt b) (hp : WholePt p) :
    cross (toVector (fp a) (fp b)) (toVector (fp a) (fp p)) = fin (orient a b p) ∧ Whole 53 (orient a b p) := by
  obtain ⟨e1, u1, u2⟩ := whole_toVector ha hb
  obtain ⟨e2, v1, v2⟩ := whole_toVector ha hp
  obtain ⟨e3, w⟩ := whole_cross u1 u2 v1 v2
  rw [e1, e2, e3]
  exact ⟨rfl, w⟩

theorem whole_one_le {n : Nat} {q : ℚ} (h : Whole n q) (hq : q ≠ 0) : 1 ≤ |q| := by
  obtain ⟨m, rfl, -⟩ := h
  have : m ≠ 0 := by rintro rfl; exact hq rfl
  exact_mod_cast Int.one_le_abs this

namespace WholeStored
variable (F : WholeStored D h σ)
include F

theorem whole' (k : Nat) : WholePt (prevCorner h k) := F.whole _

theorem near' (i j : Nat) : |(prevCorner h i).x - (prevCorner h j).x| ≤ D ∧ |(prevCorner h i).y - (prevCorner h j).y| ≤ D := F.near _ _

theorem corner_range (k : Nat) : 1 ≤ wCorner h k ∧ wCorner h k ≤ 2 ^ 53 := by
  have w := (whole_orient (F.whole' k) (F.whole' (k + 1)) (F.whole' (k + 2))).2
  refine ⟨whole_one_le w ?_, w.abs_le⟩
  intro h0
  have := F.turn k
  unfold sideOr at this
  rw [h0, mul_zero] at this
  exact lt_irrefl _ this

theorem area_range {p : Pt ℚ} (hp : WholePt p) {k : Nat} (hn : orient (prevCorner h k) (prevCorner h (k + 1)) p ≠ 0) :
    1 ≤ wArea h p k ∧ wArea h p k ≤ 2 ^ 53 := by
  have w := (whole_orient (F.whole' k) (F.whole' (k + 1)) hp).2
  exact ⟨whole_one_le w hn, w.abs_le⟩

theorem quot_range {p : Pt ℚ} (hp : WholePt p) {k : Nat} (h1 : orient (prevCorner h k) (prevCorner h (k + 1)) p ≠ 0)
    (h2 : orient (prevCorner h (k + 1)) (prevCorner h (k + 2)) p ≠ 0) :
    1 ≤ rq (wArea h p k * wArea h p (k + 1)) ∧
    1 / 2 ^ 106 ≤ rq (2 * wCorner h k) / rq (wArea h p k * wArea h p (k + 1)) ∧
    rq (2 * wCorner h k) / rq (wArea h p k * wArea h p (k + 1)) ≤ 2 ^ 54 := by
  obtain ⟨a1, a2⟩ := F.area_range hp h1
  obtain ⟨b1, b2⟩ := F.area_range hp h2
  obtain ⟨c1, c2⟩ := F.corner_range k
  have p1 : 1 / 2 ^ 0 ≤ wArea h p k * wArea h p (k + 1) := by
    rw [pow_zero, div_one]; exact one_le_mul_of_one_le_of_one_le a1 b1
  have p2 : wArea h p k * wArea h p (k + 1) ≤ 2 ^ 106 := by
    have := mul_le_mul a2 b2 (by linarith) (by positivity)
    refine this.trans (by norm_num)
  obtain ⟨q1, q2⟩ := rq_range (by norm_num) p1 p2
  rw [pow_zero, div_one] at q1
  obtain ⟨d1, d2⟩ := rq_range (k := 0) (E := 54) (q := 2 * wCorner h k) (by norm_num) (by rw [pow_zero, div_one]; linarith)
    (by rw [show (2 : ℚ) ^ 54 = 2 * 2 ^ 53 by norm_num]; linarith)
  rw [pow_zero, div_one] at d1
  have hpos : 0 < rq (wArea h p k * wArea h p (k + 1)) := by linarith
  refine ⟨q1, ?_, ?_⟩
  · rw [le_div_iff₀ hpos]
    have := mul_le_mul_of_nonneg_left q2 (show (0 : ℚ) ≤ 1 / 2 ^ 106 by positivity)
    rw [one_div_mul_cancel (by positivity)] at this
    linarith
  · rw [div_le_iff₀ hpos]
    have := mul_le_mul_of_nonneg_left q1 (show (0 : ℚ) ≤ 2 ^ 54 by positivity)
    linarith

theorem weight_range {p : Pt ℚ} (hp : WholePt p) {k : Nat} (h1 : orient (prevCorner h k) (prevCorner h (k + 1)) p ≠ 0)
    (h2 : orient (prevCorner h (k + 1)) (prevCorner h (k + 2)) p ≠ 0) :
    1 / 2 ^ 106 ≤ wWeight h p k ∧ wWeight h p k ≤ 2 ^ 54 := by
  obtain ⟨-, q1, q2⟩ := F.quot_range hp h1 h2
  exact rq_range (by norm_num) q1 q2

theorem sum_range {p : Pt ℚ} (hp : WholePt p) {k : Nat} (hk : k ≤ l.length)
    (hn : ∀ i ≤ k, orient (prevCorner h i) (prevCorner h (i + 1)) p ≠ 0) : 0 ≤ wSum h p k ∧ wSum h p k ≤ 2 * 2 ^ 54 * k := by
  induction k with
  | zero => simp [wSum]
  | succ k ih =>
    obtain ⟨i1, i2⟩ := ih (by omega) fun i hi => hn i (by omega)
    obtain ⟨w1, w2⟩ := F.weight_range hp (hn k (by omega)) (hn (k + 1) le_rfl)
    have w0 : 0 ≤ wWeight h p k := le_trans (by positivity) w1
    have hk' : ((k + 1 : ℕ) : ℚ) ≤ 2 ^ 20 := le_trans (by exact_mod_cast hk) F.many
    push_cast at hk' ⊢
    exact ⟨rq_nonneg (add_nonneg i1 w0), sum_step (one_le_pow₀ (by norm_num)) i1 i2 w0 w2 (Nat.cast_nonneg k) hk'⟩

/-- The numbers of the run. -/
theorem run {p : Pt ℚ} (hp : WholePt p) (h1 : 1 / 2 ^ 200 ≤ tol) (h2 : tol ≤ 1 / 2 ^ 20) :
    WRun (l.map fp) (fp p) (fin tol) (fun k => fp (prevCorner h k)) (fun k => fin (wArea h p k)) (fun k => fin (wWeight h p k))
      (fun k => fin (wSum h p k)) (fun k => orient (prevCorner h k) (prevCorner h (k + 1)) p = 0) where
  first := by
    have hne : l.map fp ≠ [] := by
      intro hc
      rw [List.map_eq_nil_iff] at hc
      subst hc
      exact absurd h (by simp)
    rw [rdI_last hne]
    unfold prevCorner corner
    congr 1
    rw [List.getLast_eq_getElem, List.getElem_map]
    congr 2
    rw [List.length_map, Nat.mod_eq_of_lt (by omega)]
    omega
  next := by
    intro k
    have h' : 0 < (l.map fp).length := by rw [List.length_map]; exact h
    rw [rd_corner h', prevCorner_succ]
    unfold corner
    rw [List.getElem_map]
    simp only [List.length_map]
  area := by
    intro k _
    rw [(whole_orient (F.whole' k) (F.whole' (k + 1)) hp).1, fabs_fin]
    rfl
  test := by
    intro k _
    have w := (whole_orient (F.whole' k) (F.whole' (k + 1)) hp).2
    have hs := F.near' (k + 1) k
    obtain ⟨e, e1, e2⟩ := whole_side (F.whole' k) (F.whole' (k + 1)) ⟨hs.1.trans F.size, hs.2.trans F.size⟩ 
      (Bool.eq_false_iff.2 fun hc => F.ne k ((eqv_iff _ _).1 hc).symm)
    have wA : Whole 53 (wArea h p k) := by
      unfold wArea
      rcases abs_choice (orient (prevCorner h k) (prevCorner h (k + 1)) p) with g | g <;> rw [g]
      · exact w
      · exact whole_neg w
    rw [(whole_toVector (F.whole' k) (F.whole' (k + 1))).1, whole_within h1 h2 wA e1 e2 e, decide_eq_true_iff]
    unfold wArea
    exact abs_eq_zero
  weight := by
    intro k hk hn
    obtain ⟨g1, g2, g3⟩ := F.quot_range hp (hn k (by omega)) (hn (k + 1) le_rfl)
    obtain ⟨a1, a2⟩ := F.area_range hp (hn k (by omega))
    obtain ⟨b1, b2⟩ := F.area_range hp (hn (k + 1) le_rfl)
    obtain ⟨c1, c2⟩ := F.corner_range k
    have e2 : (1 + 1 : Fl) = fin 2 := by decide +kernel
    have h3 : |2 * wCorner h k| ≤ 2 ^ (1 + 53) := abs_mul_le_pow (by norm_num) (by rw [abs_of_nonneg (by linarith)]; exact c2)
    have cc : |wArea h p k * wArea h p (k + 1)| ≤ 2 ^ (53 + 53) :=
      abs_mul_le_pow (by rw [abs_of_nonneg (by linarith)]; exact a2) (by rw [abs_of_nonneg (by linarith)]; exact b2)
    rw [(whole_orient (F.whole' k) (F.whole' (k + 1)) (F.whole' (k + 2))).1, fabs_fin, e2]
    change fdiv (fin 2 * fin (wCorner h k)) _ = _
    rw [mul_fin (by norm_num) h3, mul_fin (by norm_num) cc, fdiv_fin (k := 54) (by linarith) (by norm_num) (by
      rw [abs_of_nonneg (le_trans (by positivity) g2)]; exact g3)]
    rfl
  start := rfl
  sum := by
    intro k hk hn
    rw [List.length_map] at hk
    obtain ⟨s1, s2⟩ := F.sum_range hp hk.le (fun i hi => hn i (by omega))
    obtain ⟨w1, w2⟩ := F.weight_range hp (hn k (by omega)) (hn (k + 1) le_rfl)
    have w0 : 0 ≤ wWeight h p k := le_trans (by positivity) w1
    have hk' : (k : ℚ) ≤ 2 ^ 20 := le_trans (by exact_mod_cast hk.le) F.many
    have h4 : |wSum h p k| ≤ 2 ^ 75 := by
      rw [abs_of_nonneg s1]
      refine s2.trans ((mul_le_mul_of_nonneg_left hk' (by positivity)).trans (by norm_num))
    have h5 : |wWeight h p k| ≤ 2 ^ 75 := by
      rw [abs_of_nonneg w0]; exact w2.trans (by norm_num)
    rw [add_fin (k := 76) (by norm_num) (abs_add_le_pow h4 h5)]
    rfl

/-! ### Points that are not on the line of a side -/

theorem sum_ge {p : Pt ℚ} (hp : WholePt p) (hn : ∀ i, orient (prevCorner h i) (prevCorner h (i + 1)) p ≠ 0) {k j : Nat} (hk : k ≤ l.length)
    (hj : j < k) : wWeight h p j ≤ wSum h p k := by
  induction k with
  | zero => omega
  | succ k ih =>
    have w0 : 0 ≤ wWeight h p k := le_trans (by positivity) (F.weight_range hp (hn k) (hn (k + 1))).1
    have s0 := (F.sum_range hp (k := k) (by omega) fun i _ => hn i).1
    have hr : ∀ j, rq (wWeight h p j) = wWeight h p j := fun j => rq_of_isRep (rq_isRep _)
    rcases Nat.lt_succ_iff_lt_or_eq.1 hj with g | rfl
    · have := rq_mono (show wWeight h p j ≤ wSum h p k + wWeight h p k by linarith [ih (by omega) g])
      rw [hr] at this
      exact this
    · have := rq_mono (show wWeight h p j ≤ wSum h p j + wWeight h p j by linarith)
      rw [hr] at this
      exact this

theorem sum_err {p : Pt ℚ} (hp : WholePt p) (hn : ∀ i, orient (prevCorner h i) (prevCorner h (i + 1)) p ≠ 0) {k : Nat} (hk : k ≤ l.length) :
    |wSum h p k - ∑ i ∈ Finset.range k, wWeight h p i| ≤ 2 * k * u * ∑ i ∈ Finset.range k, wWeight h p i := by
  have hu := u_pos
  have hw' : ∀ i, 0 < wWeight h p i := fun i => lt_of_lt_of_le (by positivity) (F.weight_range hp (hn i) (hn (i + 1))).1
  induction k with
  | zero => simp [wSum]
  | succ k ih =>
    have ih := ih (by omega)
    rw [Finset.sum_range_succ]
    set Z := ∑ i ∈ Finset.range k, wWeight h p i with hZ
    have hZ0 : 0 ≤ Z := Finset.sum_nonneg fun i _ => (hw' i).le
    have hw := (F.weight_range hp (hn k) (hn (k + 1))).1
    have hw0 := hw' k
    have hS0 := (F.sum_range hp (k := k) (by omega) fun i _ => hn i).1
    have hpos : 0 < wSum h p k + wWeight h p k := by linarith
    have h1 := rq_rel (x := wSum h p k + wWeight h p k) (by
      rw [abs_of_pos hpos]
      exact ((inv_pow_le (by norm_num)).trans hw).trans (by linarith))
    rw [abs_of_pos hpos] at h1
    change |rq (wSum h p k + wWeight h p k) - _| ≤ _
    have hk0 : (0 : ℚ) ≤ k := Nat.cast_nonneg k
    have hk' : (k : ℚ) ≤ 2 ^ 20 := le_trans (by exact_mod_cast (by omega : k ≤ l.length)) F.many
    have hku : 2 * k * u ≤ 1 := by
      have := mul_le_mul_of_nonneg_left hk' (show 0 ≤ 2 * u by linarith)
      have h' : 2 * u * 2 ^ 20 ≤ 1 := by unfold u; norm_num
      linarith
    obtain ⟨i1, i2⟩ := abs_le.1 ih
    obtain ⟨j1, j2⟩ := abs_le.1 h1
    have hkZ := mul_le_mul_of_nonneg_right hku hZ0
    have h4 : u * (wSum h p k + wWeight h p k) ≤ u * (2 * (Z + wWeight h p k)) := mul_le_mul_of_nonneg_left (by linarith) hu.le
    have h5 : 0 ≤ 2 * k * u * wWeight h p k := by positivity
    push_cast
    rw [abs_le]
    constructor <;> linarith

/-- The weights before normalisation nearly have the point as weighted mean. -/
theorem moment_err {p : Pt ℚ} (hp : WholePt p) (hA : ∀ i, 0 < sideOr h σ i p) {x : Nat → ℚ} (hx : ∀ k < l.length, |x k| ≤ D)
    (hm : ∑ k ∈ Finset.range l.length, wRaw h σ p k * x k = 0) :
    |∑ k ∈ Finset.range l.length, wWeight h p k * x k| ≤ 9 * u * D * ∑ k ∈ Finset.range l.length, wWeight h p k := by
  have hu := u_pos
  have hu' := u_le
  have hn : ∀ i, orient (prevCorner h i) (prevCorner h (i + 1)) p ≠ 0 := by
    intro i h0
    have := hA i
    unfold sideOr at this
    rw [h0, mul_zero] at this
    exact lt_irrefl _ this
  have hD : 0 ≤ D := (abs_nonneg _).trans (hx 0 h)
  have hw : ∀ k, ∃ g, wWeight h p k = 2 * (wRaw h σ p k * g) ∧ |g - 1| ≤ 8 * u := by
    intro k
    obtain ⟨c1, c2⟩ := F.corner_range k
    obtain ⟨a1, a2⟩ := F.area_range hp (hn k)
    obtain ⟨b1, b2⟩ := F.area_range hp (hn (k + 1))
    obtain ⟨q1, q2, q3⟩ := F.quot_range hp (hn k) (hn (k + 1))
    have one : (1 : ℚ) / 2 ^ 1000 ≤ 1 := by
      have := inv_pow_le (i := 0) (j := 1000) (by norm_num)
      rwa [pow_zero, div_one] at this
    have hP : 1 ≤ wArea h p k * wArea h p (k + 1) := one_le_mul_of_one_le_of_one_le a1 b1
    obtain ⟨g, g1, g2⟩ := weight_rel (C := wCorner h k) (c := wCorner h k) (P := wArea h p k * wArea h p (k + 1)) (d := 0) (by linarith)
      (by linarith) (one.trans hP) (by rw [sub_self, abs_zero, zero_mul]) (by norm_num) (one.trans c1) ((inv_pow_le (by norm_num)).trans q2)
    refine ⟨g, ?_, by linarith⟩
    have e1 : wCorner h k = sideOr h σ k (prevCorner h (k + 2)) := by
      unfold wCorner
      rw [← abs_sideOr F.sign, abs_of_pos (F.turn k)]
    have e2 : ∀ k, wArea h p k = sideOr h σ k p := by
      intro k
      unfold wArea
      rw [← abs_sideOr F.sign, abs_of_pos (hA k)]
    unfold wWeight
    rw [g1, e1, e2, e2]
    unfold wRaw
    ring
  choose g g1 g2 using hw
  have hr0 : ∀ k, 0 ≤ wRaw h σ p k := fun k => div_nonneg (F.turn k).le (mul_nonneg (hA k).le (hA (k + 1)).le)
  have e1 : ∑ k ∈ Finset.range l.length, wWeight h p k * x k = ∑ k ∈ Finset.range l.length, 2 * (wRaw h σ p k * ((g k - 1) * x k)) := by
    have : ∑ k ∈ Finset.range l.length, 2 * (wRaw h σ p k * ((g k - 1) * x k)) =
        ∑ k ∈ Finset.range l.length, wWeight h p k * x k - 2 * ∑ k ∈ Finset.range l.length, wRaw h σ p k * x k := by
      rw [Finset.mul_sum, ← Finset.sum_sub_distrib]
      exact Finset.sum_congr rfl fun k _ => by rw [g1]; ring
    rw [this, hm, mul_zero, sub_zero]
  rw [e1]
  have e2 : ∀ k < l.length, |2 * (wRaw h σ p k * ((g k - 1) * x k))| ≤ 9 * u * D * wWeight h p k := by
    intro k hk
    rw [abs_mul, abs_mul, abs_mul, abs_of_nonneg (hr0 k), abs_two, g1]
    have h1 : |g k - 1| * |x k| ≤ 8 * u * D := mul_le_mul (g2 k) (hx k hk) (abs_nonneg _) (by linarith)
    have h2 := (abs_le.1 (g2 k)).1
    have h3 : 8 * u * D ≤ 9 * u * D * g k := by
      have h4 : 8 ≤ 9 * g k := by linarith
      have := mul_le_mul_of_nonneg_left h4 (mul_nonneg hu.le hD)
      linarith
    have h5 := mul_le_mul_of_nonneg_left (h1.trans h3) (hr0 k)
    linarith
  rw [Finset.mul_sum]
  exact (Finset.abs_sum_le_sum_abs _ _).trans (Finset.sum_le_sum fun k hk => e2 k (Finset.mem_range.1 hk))

/-- The weights of a point that is not on the line of a side. -/
theorem far_row {p : Pt ℚ} (hp : WholePt p) (hA : ∀ i, 0 < sideOr h σ i p)
    (hd : ∀ k, |(corner l h k).x - p.x| ≤ D ∧ |(corner l h k).y - p.y| ≤ D) : ∃ f : Nat → ℚ,
    (∀ k < l.length, fdiv (fin (wWeight h p k)) (fin (wSum h p l.length)) = .ok (fin (f k))) ∧ (∀ k < l.length, 0 ≤ f k ∧ f k ≤ 1) ∧
    |∑ k ∈ Finset.range l.length, f k - 1| ≤ 3 * l.length * u ∧
    |∑ k ∈ Finset.range l.length, f k * ((corner l h k).x - p.x)| ≤ 12 * u * D ∧
    |∑ k ∈ Finset.range l.length, f k * ((corner l h k).y - p.y)| ≤ 12 * u * D := by
  have hu := u_pos
  have hn : ∀ i, orient (prevCorner h i) (prevCorner h (i + 1)) p ≠ 0 := by
    intro i h0
    have := hA i
    unfold sideOr at this
    rw [h0, mul_zero] at this
    exact lt_irrefl _ this
  have hw0 : ∀ i, 0 < wWeight h p i := fun i => lt_of_lt_of_le (by positivity) (F.weight_range hp (hn i) (hn (i + 1))).1
  have hS0 : 0 < wSum h p l.length := (hw0 0).trans_le (F.sum_ge hp hn le_rfl h)
  have hq0 : ∀ k, 0 ≤ wWeight h p k / wSum h p l.length := fun k => div_nonneg (hw0 k).le hS0.le
  have hq1 : ∀ k < l.length, wWeight h p k / wSum h p l.length ≤ 1 := fun k hk => (div_le_one hS0).2 (F.sum_ge hp hn le_rfl hk)
  have hZ : 0 < ∑ k ∈ Finset.range l.length, wWeight h p k :=
    Finset.sum_pos (fun k _ => hw0 k) ⟨0, Finset.mem_range.2 h⟩
  have hn3 : (3 : ℚ) ≤ l.length := by exact_mod_cast F.three
  obtain ⟨r1, r2⟩ := norm_err (n := l.length) (W := wWeight h p) (f := fun k => rq (wWeight h p k / wSum h p l.length)) hn3 F.many
    (fun k _ => (hw0 k).le) hZ (F.sum_err hp hn le_rfl) (fun k _ => by
      have := rq_err_add (wWeight h p k / wSum h p l.length)
      rwa [abs_of_nonneg (hq0 k)] at this)
  have hD : 0 ≤ D := (abs_nonneg _).trans (hd 0).1
  have huD : 0 ≤ u * D := mul_nonneg hu.le hD
  obtain ⟨mx, my⟩ := wRaw_moments (h := h) F.sign hA
  refine ⟨fun k => rq (wWeight h p k / wSum h p l.length), ?_, ?_, r1, ?_, ?_⟩
  · intro k hk
    exact fdiv_fin (k := 0) hS0.ne' (by norm_num) (by rw [abs_of_nonneg (hq0 k), pow_zero]; exact hq1 k hk)
  · intro k hk
    refine ⟨rq_nonneg (hq0 k), ?_⟩
    have := rq_mono (hq1 k hk)
    rwa [rq_one] at this
  · have := r2 (fun k _ => (hd k).1) hD (F.moment_err hp hA (fun k _ => (hd k).1) mx) (by linarith)
    linarith
  · have := r2 (fun k _ => (hd k).2) hD (F.moment_err hp hA (fun k _ => (hd k).2) my) (by linarith)
    linarith

/-! ### Points on the line of a side -/

/-- A point of the face on the line of a side is on the side. -/
theorem on_side {p : Pt ℚ} (hin : ∀ k, 0 ≤ sideOr h σ k p) {j : Nat} (hj : orient (prevCorner h j) (prevCorner h (j + 1)) p = 0) :
    ∃ t, 0 ≤ t ∧ t ≤ 1 ∧ p.x - (prevCorner h j).x = t * ((prevCorner h (j + 1)).x - (prevCorner h j).x) ∧
      p.y - (prevCorner h j).y = t * ((prevCorner h (j + 1)).y - (prevCorner h j).y) := by
  have hab := F.ne j
  have t2 := F.turn j
  have t1 := F.turn (j + l.length - 1)
  have n2 := hin (j + 1)
  have n1 := hin (j + l.length - 1)
  have hl := F.three
  unfold sideOr at t1 t2 n1 n2
  rw [show j + l.length - 1 + 1 = j + l.length from by omega, show j + l.length - 1 + 2 = (j + 1) + l.length from by omega,
    prevCorner_period, prevCorner_period] at t1
  rw [show j + l.length - 1 + 1 = j + l.length from by omega, prevCorner_period] at n1
  rw [show j + 1 + 1 = j + 2 from rfl] at n2
  set a := prevCorner h j with ha
  set b := prevCorner h (j + 1) with hb
  set c := prevCorner h (j + 2) with hc
  set z := prevCorner h (j + l.length - 1) with hz
  have hN : 0 < (b.x - a.x) * (b.x - a.x) + (b.y - a.y) * (b.y - a.y) := by
    rcases lt_or_eq_of_le (add_nonneg (mul_self_nonneg (b.x - a.x)) (mul_self_nonneg (b.y - a.y))) with g | g
    · exact g
    · exfalso
      obtain ⟨g1, g2⟩ := (add_eq_zero_iff_of_nonneg (mul_self_nonneg _) (mul_self_nonneg _)).1 g.symm
      exact hab (Pt.ext' (sub_eq_zero.1 (mul_self_eq_zero.1 g1)).symm (sub_eq_zero.1 (mul_self_eq_zero.1 g2)).symm)
  set N := (b.x - a.x) * (b.x - a.x) + (b.y - a.y) * (b.y - a.y) with hNd
  set t := ((p.x - a.x) * (b.x - a.x) + (p.y - a.y) * (b.y - a.y)) / N with ht
  have htN : t * N = (p.x - a.x) * (b.x - a.x) + (p.y - a.y) * (b.y - a.y) := by rw [ht, div_mul_cancel₀ _ hN.ne']
  unfold orient at hj
  have ex : p.x - a.x = t * (b.x - a.x) := by
    have : (p.x - a.x) * N = t * (b.x - a.x) * N := by
      rw [mul_right_comm, htN, hNd]
      linear_combination (-(b.y - a.y)) * hj
    exact mul_right_cancel₀ hN.ne' this
  have ey : p.y - a.y = t * (b.y - a.y) := by
    have : (p.y - a.y) * N = t * (b.y - a.y) * N := by
      rw [mul_right_comm, htN, hNd]
      linear_combination (b.x - a.x) * hj
    exact mul_right_cancel₀ hN.ne' this
  refine ⟨t, ?_, ?_, ex, ey⟩
  · have e : σ * orient z a p = t * (σ * orient z a b) := by
      unfold orient
      linear_combination (-σ * (a.y - z.y)) * ex + (σ * (a.x - z.x)) * ey
    rw [e] at n1
    exact nonneg_of_mul_nonneg_left n1 t1
  · have e : σ * orient b c p = (1 - t) * (σ * orient a b c) := by
      unfold orient
      linear_combination (-σ * (c.y - b.y)) * ex + (σ * (c.x - b.x)) * ey
    rw [e] at n2
    linarith [nonneg_of_mul_nonneg_left n2 t2]

/-- The weights of a point of the face on the line of side `j`. -/
theorem near_row {p : Pt ℚ} (hp : WholePt p) (hin : ∀ k, 0 ≤ sideOr h σ k p) {j : Nat}
    (hj : orient (prevCorner h j) (prevCorner h (j + 1)) p = 0) : ∃ f : Nat → ℚ,
    (∀ m, l.length ≤ m → interpEdgeCase env m (fp (prevCorner h j)) (toVector (fp (prevCorner h j)) (fp (prevCorner h (j + 1)))) (fp p)
      ((j + l.length - 1) % l.length) (j % l.length) = .ok (fRow m (fun k => fin (f k)) l.length)) ∧
    (∀ k < l.length, 0 ≤ f k ∧ f k ≤ 1) ∧ |∑ k ∈ Finset.range l.length, f k - 1| ≤ 2 * u ∧
    |∑ k ∈ Finset.range l.length, f k * ((corner l h k).x - p.x)| ≤ 66 * u * D ∧
    |∑ k ∈ Finset.range l.length, f k * ((corner l h k).y - p.y)| ≤ 66 * u * D ∧
    (∀ i k, i < l.length → sideOr h σ k p = 0 → f i ≠ 0 → corner l h i = prevCorner h k ∨ corner l h i = prevCorner h (k + 1)) ∧
    (∀ i < l.length, corner l h i = p → ∀ k < l.length, f k = if k = i then 1 else 0) := by
  have hu := u_pos
  obtain ⟨t, t0, t1, ex, ey⟩ := F.on_side hin hj
  have hl := F.three
  set a := prevCorner h j with ha
  set b := prevCorner h (j + 1) with hb
  have wa : WholePt a := F.whole' j
  have wb : WholePt b := F.whole' (j + 1)
  have big : ∀ {q : Pt ℚ}, WholePt q → Bnd (2 ^ 199) q := fun hq =>
    ⟨hq.1.abs_le.trans (by norm_num), hq.2.abs_le.trans (by norm_num)⟩
  have hL : 1 / 2 ^ 160 ≤ |b.x - a.x| ∨ 1 / 2 ^ 160 ≤ |b.y - a.y| := by
    by_cases g : b.x - a.x = 0
    · right
      refine le_trans ?_ (whole_one_le (wb.2.sub wa.2) fun g' => F.ne j (Pt.ext' (sub_eq_zero.1 g).symm (sub_eq_zero.1 g').symm))
      norm_num
    · left
      refine le_trans ?_ (whole_one_le (wb.1.sub wa.1) g)
      norm_num
  obtain ⟨w, w1, w2, w3, w4, w5, w6⟩ := ratio_exact (ux := b.x - a.x) (uy := b.y - a.y) (t := t)
    (abs_sub_le_pow (big wb).1 (big wa).1) (abs_sub_le_pow (big wb).2 (big wa).2) hL t0 t1
  have he : |rq (1 - w) - (1 - w)| ≤ 2 * u := by
    have e1 := rq_err_add (1 - w)
    have e2 : eta ≤ u := by unfold eta u; exact inv_pow_le (by norm_num)
    have e3 := mul_le_mul_of_nonneg_left (show |1 - w| ≤ 1 by rw [abs_of_nonneg (by linarith)]; linarith) hu.le
    linarith
  set i := (j + l.length - 1) % l.length with hi
  set j' := j % l.length with hjd
  have hil : i < l.length := Nat.mod_lt _ h
  have hjl : j' < l.length := Nat.mod_lt _ h
  have ci : corner l h i = a := by rw [ha, hi]; unfold prevCorner corner; simp only [Nat.mod_mod]
  have cj : corner l h j' = b := by rw [hb, hjd, prevCorner_succ]; unfold corner; simp only [Nat.mod_mod]
  have hij : i ≠ j' := by
    intro e
    rw [e, cj] at ci
    exact F.ne j ci.symm
  have hr0 : 0 ≤ rq (1 - w) := rq_nonneg (by linarith)
  have hr1 : rq (1 - w) ≤ 1 := by
    have := rq_mono (show 1 - w ≤ 1 by linarith)
    rwa [rq_one] at this
  have hD := F.near' (j + 1) j
  rw [← ha, ← hb] at hD
  have hDn : 0 ≤ D := (abs_nonneg _).trans hD.1
  have pos : ∀ {av bv pv : ℚ}, |bv - av| ≤ D → pv - av = t * (bv - av) → |rq (1 - w) * (av - pv) + w * (bv - pv)| ≤ 66 * u * D := by
    intro av bv pv g1 g2
    have e : rq (1 - w) * (av - pv) + w * (bv - pv) = ((w - t) - (rq (1 - w) - (1 - w)) * t) * (bv - av) := by
      have : bv - pv = (1 - t) * (bv - av) := by linarith
      rw [this, show av - pv = -(t * (bv - av)) by linarith]
      ring
    rw [e, abs_mul]
    have g3 : |(rq (1 - w) - (1 - w)) * t| ≤ 2 * u := by
      rw [abs_mul, abs_of_nonneg t0]
      exact (mul_le_of_le_one_right (abs_nonneg _) t1).trans he
    have g4 := abs_sub (w - t) ((rq (1 - w) - (1 - w)) * t)
    exact mul_le_mul (by linarith) g1 (abs_nonneg _) (by linarith)
  refine ⟨fun k => if k = j' then w else if k = i then rq (1 - w) else 0, ?_, ?_, ?_, ?_, ?_, ?_, ?_⟩
  · intro m hm
    unfold interpEdgeCase
    simp only
    rw [sq_fl (big wa) (big hp), sq_fl (big wa) (big wb), ex, ey, w1, ok_bind]
    have e3 : (1 : Fl) - fin w = fin (rq (1 - w)) := by
      rw [one_def]
      exact sub_fin (k := 1) (by norm_num) (by rw [pow_one, abs_of_nonneg (by linarith)]; linarith)
    rw [e3]
    exact pair_fRow hm hil hjl _ _
  · intro k _
    simp only
    split
    · exact ⟨w2, w3⟩
    · split
      · exact ⟨hr0, hr1⟩
      · exact ⟨le_rfl, zero_le_one⟩
  · have := sum_pair hil hjl hij (rq (1 - w)) w (fun _ => 1)
    simp only [mul_one] at this
    rw [this]
    rw [show rq (1 - w) + w - 1 = rq (1 - w) - (1 - w) by ring]
    exact he
  · rw [sum_pair hil hjl hij _ _ (fun k => (corner l h k).x - p.x), ci, cj]
    exact pos hD.1 ex
  · rw [sum_pair hil hjl hij _ _ (fun k => (corner l h k).y - p.y), ci, cj]
    exact pos hD.2 ey
  · intro i' k hi' hk hf
    have e : sideOr h σ k p = (1 - t) * sideOr h σ k a + t * sideOr h σ k b := by
      unfold sideOr orient
      linear_combination (-σ * ((prevCorner h (k + 1)).y - (prevCorner h k).y)) * ex +
        (σ * ((prevCorner h (k + 1)).x - (prevCorner h k).x)) * ey
    rw [hk] at e
    have na : 0 ≤ sideOr h σ k a := by rw [← ci]; exact F.nonneg k i
    have nb : 0 ≤ sideOr h σ k b := by rw [← cj]; exact F.nonneg k j'
    obtain ⟨z1, z2⟩ := (add_eq_zero_iff_of_nonneg (mul_nonneg (by linarith) na) (mul_nonneg t0 nb)).1 e.symm
    simp only at hf
    split at hf
    · rename_i g
      rw [g]
      apply F.line
      rw [cj]
      exact (mul_eq_zero.1 z2).resolve_left fun g' => hf (w5 g')
    · split at hf
      · rename_i g
        rw [g]
        apply F.line
        rw [ci]
        refine (mul_eq_zero.1 z1).resolve_left fun g' => hf ?_
        rw [w6 (by linarith), sub_self, rq_zero]
      · exact (hf rfl).elim
  · intro i' hi' hp' k hk
    have h0 : sideOr h σ j (corner l h i') = 0 := by
      rw [hp']; unfold sideOr; rw [hj, mul_zero]
    have inj : ∀ {x y : Nat}, x < l.length → y < l.length → corner l h x = corner l h y → x = y := by
      intro x y hx hy e
      have := (List.Nodup.getElem_inj_iff F.nodup).1 e
      rwa [Nat.mod_eq_of_lt hx, Nat.mod_eq_of_lt hy] at this
    have hN : b.x - a.x ≠ 0 ∨ b.y - a.y ≠ 0 := by
      by_contra hc
      push Not at hc
      exact F.ne j (Pt.ext' (sub_eq_zero.1 hc.1).symm (sub_eq_zero.1 hc.2).symm)
    rcases F.line j i' h0 with g | g
    · -- at the first end
      have hi2 : i' = i := inj hi' hil (g.trans ci.symm)
      have hpa : p = a := hp'.symm.trans g
      have ht : t = 0 := by
        rw [hpa, sub_self] at ex ey
        rcases hN with g' | g'
        · exact (mul_eq_zero.1 ex.symm).resolve_right g'
        · exact (mul_eq_zero.1 ey.symm).resolve_right g'
      have hw := w5 ht
      simp only [hw, sub_zero, rq_one, hi2]
      by_cases k1 : k = j'
      · rw [if_pos k1, if_neg (by rw [k1]; exact hij.symm)]
      · rw [if_neg k1]
    · have hi2 : i' = j' := inj hi' hjl (g.trans cj.symm)
      have hpb : p = b := hp'.symm.trans g
      have ht : t = 1 := by
        rw [hpb] at ex ey
        rcases hN with g' | g'
        · exact (mul_right_cancel₀ g' (by rw [one_mul]; exact ex)).symm
        · exact (mul_right_cancel₀ g' (by rw [one_mul]; exact ey)).symm
      have hw := w6 ht
      simp only [hw, sub_self, rq_zero, hi2, ite_self]

end WholeStored

end Celltree.Fl
