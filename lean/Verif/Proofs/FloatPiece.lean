import Verif.Proofs.FloatCyrus

/-!
# The piece of an edge in a face, in binary64
-/

set_option linter.unusedSectionVars false

namespace Celltree

theorem corner_map {α β : Type} (f : α → β) (l : List α) (h : 0 < (l.map f).length) (h' : 0 < l.length) (m : Nat) :
    corner (l.map f) h m = f (corner l h' m) := by
  unfold corner
  simp only [List.getElem_map, List.length_map]

theorem hitAt_swap {K : Type} [Field K] [LinearOrder K] [IsStrictOrderedRing K] (a b : Pt K) (s : Pt K × Pt K) :
    hitAt a b s.swap = hitAt a b s := by
  unfold hitAt
  have e : ∀ p, orient s.swap.1 s.swap.2 p = -orient s.1 s.2 p := by
    intro p; unfold orient; simp only [Prod.fst_swap, Prod.snd_swap]; ring
  rw [e, e, ← neg_div_neg_eq]
  congr 1 <;> ring

/-- Where the line meets a side. -/
theorem hit_on_side {K : Type} [Field K] [LinearOrder K] [IsStrictOrderedRing K] {a b : Pt K} {s : Pt K × Pt K}
    (ho : (orient a b s.1 < 0 ∧ 0 < orient a b s.2) ∨ (orient a b s.2 < 0 ∧ 0 < orient a b s.1)) :
    ∃ x, 0 ≤ x ∧ x ≤ 1 ∧ lineAt a b (hitAt a b s) = lineAt s.1 s.2 x := by
  have hd : orient a b s.2 - orient a b s.1 ≠ 0 := by
    rcases ho with ⟨h1, h2⟩ | ⟨h1, h2⟩
    · exact (by linarith : (0:K) < _).ne'
    · exact (by linarith : _ < (0:K)).ne
  have hne : s.1 ≠ s.2 := by
    intro e; rw [e, sub_self] at hd; exact hd rfl
  have h0 : orient s.1 s.2 (lineAt a b (hitAt a b s)) = 0 := by
    rw [orient_hit]
    unfold hitAt
    rw [hitAt_den, div_mul_cancel₀ _ hd, sub_self]
  obtain ⟨x, hx⟩ := exists_lineAt hne h0
  have e1 : orient a b (lineAt a b (hitAt a b s)) = 0 := by unfold orient lineAt; ring
  have e2 : orient a b (lineAt s.1 s.2 x) = (1 - x) * orient a b s.1 + x * orient a b s.2 := by
    unfold orient lineAt; ring
  rw [hx, e2] at e1
  refine ⟨x, ?_, ?_, hx⟩
  · by_contra h
    push Not at h
    rcases ho with ⟨h1, h2⟩ | ⟨h1, h2⟩ <;> nlinarith
  · by_contra h
    push Not at h
    rcases ho with ⟨h1, h2⟩ | ⟨h1, h2⟩ <;> nlinarith

namespace Fl

theorem toCoord_fl {M x y τ : ℚ} (hM : 1 / 2 ^ 100 ≤ M) (hM' : M ≤ 2 ^ 199) (hx : |x| ≤ M) (hy : |y| ≤ M) (h0 : 0 ≤ τ)
    (h1 : τ ≤ 1) : ∃ p, fin x + fin τ * fin (rq (y - x)) = fin p ∧ |p - (x + τ * (y - x))| ≤ M / 2 ^ 49 := by
  have hM0 : 0 < M := lt_of_lt_of_le (by positivity) hM
  have hu := u_pos
  have he : eta ≤ u * M := by
    have : eta = 1 / 2 ^ 975 * (1 / 2 ^ 100) := by
      unfold eta; rw [div_mul_div_comm, one_mul, ← pow_add]
    rw [this]
    refine mul_le_mul ?_ hM (by positivity) hu.le
    unfold u
    exact inv_pow_le (by norm_num)
  have hτ : |τ| ≤ 1 := by rw [abs_of_nonneg h0]; exact h1
  have p200 : M ≤ 2 ^ 200 := hM'.trans (pow_le_pow_right₀ (by norm_num) (by norm_num))
  have d0 : |y - x| ≤ 2 * M := (abs_sub _ _).trans (by linarith)
  have b1 : |y - x| ≤ 2 ^ (200 + 1) := abs_sub_le_pow (hy.trans p200) (hx.trans p200)
  have b2 := abs_rq_le b1
  have b3 : |τ * rq (y - x)| ≤ 2 ^ 201 := by
    rw [abs_mul]
    calc |τ| * |rq (y - x)| ≤ 1 * 2 ^ 201 := mul_le_mul hτ b2 (abs_nonneg _) (by norm_num)
      _ = _ := one_mul _
  have b4 := abs_rq_le b3
  have b5 : |x + rq (τ * rq (y - x))| ≤ 2 ^ 202 := by
    refine (abs_add_le _ _).trans ?_
    have h2 : (2:ℚ) ^ 200 ≤ 2 ^ 201 := pow_le_pow_right₀ (by norm_num) (by norm_num)
    have h3 : (2:ℚ) ^ 202 = 2 ^ 201 + 2 ^ 201 := by rw [pow_succ]; ring
    linarith
  refine ⟨rq (x + rq (τ * rq (y - x))), ?_, ?_⟩
  · rw [mul_fin (k := 201) (by norm_num) b3, add_fin (k := 202) (by norm_num) b5]
  · have r1 := rq_err_add (y - x)
    have r2 := rq_err_add (τ * rq (y - x))
    have r3 := rq_err_add (x + rq (τ * rq (y - x)))
    set A := rq (y - x)
    set B := rq (τ * A)
    have hu1 : u ≤ 1 / 64 := by unfold u; norm_num
    have huM : u * M ≤ 1 / 64 * M := mul_le_mul_of_nonneg_right hu1 hM0.le
    have s1 : |A - (y - x)| ≤ 3 * (u * M) := by
      have := mul_le_mul_of_nonneg_left d0 hu.le
      linarith
    have s2 : |A| ≤ 3 * M := by
      calc |A| = |(A - (y - x)) + (y - x)| := by ring_nf
        _ ≤ _ := (abs_add_le _ _).trans (by linarith)
    have s3 : |τ * A| ≤ 3 * M := by
      rw [abs_mul]
      calc |τ| * |A| ≤ 1 * (3 * M) := mul_le_mul hτ s2 (abs_nonneg _) (by norm_num)
        _ = _ := one_mul _
    have s4 : |B - τ * A| ≤ 4 * (u * M) := by
      have := mul_le_mul_of_nonneg_left s3 hu.le
      linarith
    have s5 : |x + B| ≤ 5 * M := by
      calc |x + B| = |x + (B - τ * A) + τ * A| := by ring_nf
        _ ≤ |x| + |B - τ * A| + |τ * A| := (abs_add_le _ _).trans (by linarith [abs_add_le x (B - τ * A)])
        _ ≤ _ := by linarith
    have s6 : |rq (x + B) - (x + B)| ≤ 6 * (u * M) := by
      have := mul_le_mul_of_nonneg_left s5 hu.le
      linarith
    have s7 : |τ * (A - (y - x))| ≤ 3 * (u * M) := by
      rw [abs_mul]
      calc |τ| * |A - (y - x)| ≤ 1 * (3 * (u * M)) := mul_le_mul hτ s1 (abs_nonneg _) (by norm_num)
        _ = _ := one_mul _
    have e16 : M / 2 ^ 49 = 16 * (u * M) := by unfold u; ring
    rw [e16]
    calc |rq (x + B) - (x + τ * (y - x))| = |(rq (x + B) - (x + B)) + (B - τ * A) + τ * (A - (y - x))| := by ring_nf
      _ ≤ |rq (x + B) - (x + B)| + |B - τ * A| + |τ * (A - (y - x))| :=
        (abs_add_le _ _).trans (by linarith [abs_add_le (rq (x + B) - (x + B)) (B - τ * A)])
      _ ≤ _ := by linarith [mul_pos hu hM0]

/-- The computed point of a parameter. -/
theorem toPoint_fl {M θ E τ t : ℚ} {a b : Pt ℚ} (hM : 1 / 2 ^ 100 ≤ M) (hM' : M ≤ 2 ^ 199) (ma : ModPt a) (mb : ModPt b)
    (ba : Bnd M a) (bb : Bnd M b) (hE : |b.x - a.x| ≤ E ∧ |b.y - a.y| ≤ E) (h0 : 0 ≤ τ) (h1 : τ ≤ 1) (hθ : |τ - t| ≤ θ) :
    ∃ p, toPoint (fin τ) (fp a) (toVector (fp a) (fp b)) = fp p ∧ Within (θ * E + M / 2 ^ 49) p (lineAt a b t) := by
  obtain ⟨px, e1, f1⟩ := toCoord_fl hM hM' ba.1 bb.1 h0 h1
  obtain ⟨py, e2, f2⟩ := toCoord_fl hM hM' ba.2 bb.2 h0 h1
  refine ⟨⟨px, py⟩, ?_, ?_, ?_⟩
  · rw [toVector_fin ma mb]
    unfold toPoint
    show (⟨fin a.x + fin τ * fin (rq (b.x - a.x)), fin a.y + fin τ * fin (rq (b.y - a.y))⟩ : Pt Fl) = _
    rw [e1, e2]; rfl
  · have : |(τ - t) * (b.x - a.x)| ≤ θ * E := by
      rw [abs_mul]; exact mul_le_mul hθ hE.1 (abs_nonneg _) ((abs_nonneg _).trans hθ)
    calc |px - (lineAt a b t).x| = |(px - (a.x + τ * (b.x - a.x))) + (τ - t) * (b.x - a.x)| := by
          unfold lineAt; simp only; ring_nf
      _ ≤ _ := (abs_add_le _ _).trans (by linarith)
  · have : |(τ - t) * (b.y - a.y)| ≤ θ * E := by
      rw [abs_mul]; exact mul_le_mul hθ hE.2 (abs_nonneg _) ((abs_nonneg _).trans hθ)
    calc |py - (lineAt a b t).y| = |(py - (a.y + τ * (b.y - a.y))) + (τ - t) * (b.y - a.y)| := by
          unfold lineAt; simp only; ring_nf
      _ ≤ _ := (abs_add_le _ _).trans (by linarith)

theorem within_params {a b : Pt ℚ} {E s t δ : ℚ} (hE : |b.x - a.x| ≤ E ∧ |b.y - a.y| ≤ E) (h : |s - t| ≤ δ) :
    Within (δ * E) (lineAt a b s) (lineAt a b t) := by
  have key : ∀ x y : ℚ, |y - x| ≤ E → |x + s * (y - x) - (x + t * (y - x))| ≤ δ * E := by
    intro x y hxy
    rw [show x + s * (y - x) - (x + t * (y - x)) = (s - t) * (y - x) by ring, abs_mul]
    exact mul_le_mul h hxy (abs_nonneg _) ((abs_nonneg _).trans h)
  exact ⟨key _ _ hE.1, key _ _ hE.2⟩

/-- Where a parameter is, and where the computed one is. -/
theorem param_class {θ t τ : ℚ} (hθ : 0 < θ) (hθ' : θ ≤ 1 / 16) (h : |τ - t| ≤ θ * (1 + |t|)) (h0 : 8 * θ < |t|)
    (h1 : 8 * θ < |1 - t|) :
    (t < 0 ∧ τ < 0) ∨ (0 < t ∧ t < 1 ∧ 0 < τ ∧ τ < 1 ∧ |τ - t| ≤ 2 * θ) ∨ (1 < t ∧ 1 < τ) := by
  have hsq : θ * θ ≤ 1 / 16 * θ := mul_le_mul_of_nonneg_right hθ' hθ.le
  rcases lt_trichotomy t 0 with ht | rfl | ht
  · left
    rw [abs_of_neg ht] at h h0
    have := (abs_le.1 h).2
    refine ⟨ht, ?_⟩
    nlinarith
  · simp at h0; linarith
  · rw [abs_of_pos ht] at h h0
    rcases lt_trichotomy t 1 with g | rfl | g
    · right; left
      rw [abs_of_pos (sub_pos.2 g)] at h1
      have h2 : |τ - t| ≤ 2 * θ := h.trans (by nlinarith)
      have := abs_le.1 h2
      exact ⟨ht, g, by linarith, by linarith, h2⟩
    · simp at h1; linarith
    · right; right
      rw [abs_of_neg (sub_neg.2 g)] at h1
      have := (abs_le.1 h).1
      refine ⟨g, ?_⟩
      nlinarith

section
variable {M θ E lo hi τl τh : ℚ} {a b : Pt ℚ} (hM : 1 / 2 ^ 100 ≤ M) (hM' : M ≤ 2 ^ 199) (ma : ModPt a) (mb : ModPt b)
  (ba : Bnd M a) (bb : Bnd M b) (hE : |b.x - a.x| ≤ E ∧ |b.y - a.y| ≤ E) {S : Pt ℚ → Prop}
  (hS : ∀ u, S (lineAt a b u) ↔ lo ≤ u ∧ u ≤ hi) (hle : lo ≤ hi) (hθ : 0 < θ) (hθ' : θ ≤ 1 / 16)
include hM hM' ma mb ba bb hE hS hle hθ hθ'

theorem PieceAcc.first (hl : lo < 0) (h0 : 0 < hi) (h1 : hi < 1) (hτ0 : 0 < τh) (hτ1 : τh < 1) (hτ : |τh - hi| ≤ 2 * θ) :
    PieceAcc (8 * θ * E + M / 2 ^ 49) S a b (some (fp a, toPoint (fin τh) (fp a) (toVector (fp a) (fp b)))) := by
  have hE0 : 0 ≤ E := (abs_nonneg _).trans hE.1
  have hM0 : 0 < M := lt_of_lt_of_le (by positivity) hM
  obtain ⟨q, e, hq⟩ := toPoint_fl hM hM' ma mb ba bb hE hτ0.le hτ1.le hτ
  refine ⟨0, hi, a, q, le_rfl, h0.le, h1.le, ?_, rfl, e, ?_, hq.mono ?_⟩
  · intro u hu _
    rw [hS]
    exact ⟨fun h => ⟨hu, h.2⟩, fun h => ⟨by linarith, h.2⟩⟩
  · rw [lineAt_zero]
    exact within_self (by positivity) _
  · have := mul_nonneg hθ.le hE0; linarith

theorem PieceAcc.last (hl : 1 < hi) (h0 : 0 < lo) (h1 : lo < 1) (hτ0 : 0 < τl) (hτ1 : τl < 1) (hτ : |τl - lo| ≤ 2 * θ) :
    PieceAcc (8 * θ * E + M / 2 ^ 49) S a b (some (toPoint (fin τl) (fp a) (toVector (fp a) (fp b)), fp b)) := by
  have hE0 : 0 ≤ E := (abs_nonneg _).trans hE.1
  have hM0 : 0 < M := lt_of_lt_of_le (by positivity) hM
  obtain ⟨q, e, hq⟩ := toPoint_fl hM hM' ma mb ba bb hE hτ0.le hτ1.le hτ
  refine ⟨lo, 1, q, b, h0.le, h1.le, le_rfl, ?_, e, rfl, hq.mono ?_, ?_⟩
  · intro u _ hu
    rw [hS]
    exact ⟨fun h => ⟨h.1, hu⟩, fun h => ⟨h.1, by linarith⟩⟩
  · have := mul_nonneg hθ.le hE0; linarith
  · rw [lineAt_one]
    exact within_self (by positivity) _

theorem PieceAcc.middle (h0 : 0 < lo) (h1 : hi < 1) (hτ0 : 0 < τl) (hτ1 : τh < 1) (hlt : τl ≤ τh) (hτ : |τl - lo| ≤ 2 * θ)
    (hτ' : |τh - hi| ≤ 2 * θ) :
    PieceAcc (8 * θ * E + M / 2 ^ 49) S a b (some (toPoint (fin τl) (fp a) (toVector (fp a) (fp b)),
      toPoint (fin τh) (fp a) (toVector (fp a) (fp b)))) := by
  have hE0 : 0 ≤ E := (abs_nonneg _).trans hE.1
  obtain ⟨p, e, hp⟩ := toPoint_fl hM hM' ma mb ba bb hE hτ0.le (hlt.trans hτ1.le) hτ
  obtain ⟨q, e', hq⟩ := toPoint_fl hM hM' ma mb ba bb hE (hτ0.le.trans hlt) hτ1.le hτ'
  have hm : 2 * θ * E + M / 2 ^ 49 ≤ 8 * θ * E + M / 2 ^ 49 := by
    have := mul_nonneg hθ.le hE0; linarith
  exact ⟨lo, hi, p, q, h0.le, hle, h1.le, fun u _ _ => hS u, e, e', hp.mono hm, hq.mono hm⟩

theorem PieceAcc.nothing (h : hi < 0 ∨ 1 < lo) : PieceAcc (8 * θ * E + M / 2 ^ 49) S a b none := by
  refine ⟨?_, ?_⟩
  · rintro ⟨h1, h2⟩
    rw [← lineAt_zero a b, hS] at h1
    rw [← lineAt_one a b, hS] at h2
    rcases h with h | h <;> linarith
  · intro s t s0 s1 _ _ hs _
    obtain ⟨h1, h2⟩ := (hS s).1 hs
    rcases h with h | h <;> linarith

theorem cbFinish_fl {aIn bIn : Bool} (ha : aIn = true ↔ S a) (hb : bIn = true ↔ S b) (hab : ¬ (aIn && bIn) = true)
    (hl : |τl - lo| ≤ θ * (1 + |lo|)) (hh : |τh - hi| ≤ θ * (1 + |hi|)) (l0 : 8 * θ < |lo|) (l1 : 8 * θ < |1 - lo|)
    (k0 : 8 * θ < |hi|) (k1 : 8 * θ < |1 - hi|) {t0 t1 : ℚ} (ht : (t0, t1) = (τl, τh) ∨ (t0, t1) = (τh, τl)) :
    PieceAcc (8 * θ * E + M / 2 ^ 49) S a b (cbFinish (fp a) (fp b) (toVector (fp a) (fp b)) aIn bIn (fin t0) (fin t1)) := by
  have hE0 : 0 ≤ E := (abs_nonneg _).trans hE.1
  have hM0 : 0 < M := lt_of_lt_of_le (by positivity) hM
  have ha' : aIn = true ↔ lo ≤ 0 ∧ 0 ≤ hi := by rw [ha, ← hS 0, lineAt_zero]
  have hb' : bIn = true ↔ lo ≤ 1 ∧ 1 ≤ hi := by rw [hb, ← hS 1, lineAt_one]
  have hnot : ¬ (lo ≤ 0 ∧ 1 ≤ hi) := by
    rintro ⟨h1, h2⟩
    exact hab (by rw [ha'.2 ⟨h1, by linarith⟩, hb'.2 ⟨by linarith, h2⟩]; rfl)
  have z0 : (0 : Fl) = fin 0 := rfl
  have z1 : (1 : Fl) = fin 1 := rfl
  have cl := param_class hθ hθ' hl l0 l1
  have ch := param_class hθ hθ' hh k0 k1
  have hsort : (if fin t1 < fin t0 then (fin t1, fin t0) else (fin t0, fin t1)) = (fin (min t0 t1), fin (max t0 t1)) := by
    by_cases h : t1 < t0
    · rw [if_pos ((lt_fin _ _).2 h), min_eq_right h.le, max_eq_left h.le]
    · rw [if_neg (fun h' => h ((lt_fin _ _).1 h')), min_eq_left (not_lt.1 h), max_eq_right (not_lt.1 h)]
  have hmin : min t0 t1 = min τl τh := by
    rcases ht with h | h <;> simp only [Prod.mk.injEq] at h <;> rw [h.1, h.2]
    exact min_comm _ _
  have hmax : max t0 t1 = max τl τh := by
    rcases ht with h | h <;> simp only [Prod.mk.injEq] at h <;> rw [h.1, h.2]
    exact max_comm _ _
  have heq : t0 = t1 ↔ τl = τh := by
    rcases ht with h | h <;> simp only [Prod.mk.injEq] at h <;> rw [h.1, h.2]
    exact eq_comm
  unfold cbFinish
  simp only [beq_fin]
  by_cases he : t0 = t1
  · have hτ := heq.1 he
    rw [decide_eq_true he, if_pos rfl]
    have hnone : PieceAcc (8 * θ * E + M / 2 ^ 49) S a b none ∧ aIn = false ∧ bIn = false := by
      rcases cl with ⟨c1, c2⟩ | ⟨c1, c2, c3, c4, c5⟩ | ⟨c1, c2⟩ <;>
        rcases ch with ⟨d1, d2⟩ | ⟨d1, d2, d3, d4, d5⟩ | ⟨d1, d2⟩
      · refine ⟨PieceAcc.nothing hM hM' ma mb ba bb hE hS hle hθ hθ' (Or.inl d1), ?_, ?_⟩
        · rw [Bool.eq_false_iff, ne_eq, ha']; rintro ⟨_, h⟩; linarith
        · rw [Bool.eq_false_iff, ne_eq, hb']; rintro ⟨_, h⟩; linarith
      · linarith
      · linarith
      · linarith
      · refine ⟨?_, ?_, ?_⟩
        · refine ⟨fun h => hab (by rw [ha.2 h.1, hb.2 h.2]; rfl), ?_⟩
          intro s t _ _ _ _ hs ht
          obtain ⟨s2, s3⟩ := (hS s).1 hs
          obtain ⟨t2, t3⟩ := (hS t).1 ht
          rw [hτ] at c5
          have e1 := abs_le.1 c5
          have e2 := abs_le.1 d5
          have : |s - t| ≤ 4 * θ := by rw [abs_le]; constructor <;> linarith
          refine (within_params hE this).mono ?_
          have := mul_nonneg hθ.le hE0
          have := div_nonneg hM0.le (show (0:ℚ) ≤ 2 ^ 49 by positivity)
          linarith
        · rw [Bool.eq_false_iff, ne_eq, ha']; rintro ⟨h, _⟩; linarith
        · rw [Bool.eq_false_iff, ne_eq, hb']; rintro ⟨_, h⟩; linarith
      · linarith
      · linarith
      · linarith
      · refine ⟨PieceAcc.nothing hM hM' ma mb ba bb hE hS hle hθ hθ' (Or.inr c1), ?_, ?_⟩
        · rw [Bool.eq_false_iff, ne_eq, ha']; rintro ⟨h, _⟩; linarith
        · rw [Bool.eq_false_iff, ne_eq, hb']; rintro ⟨h, _⟩; linarith
    obtain ⟨h1, h2, h3⟩ := hnone
    rw [h2, h3]
    exact h1
  · have hτ : τl ≠ τh := fun h => he (heq.2 h)
    rw [decide_eq_false he]
    simp only [Bool.false_eq_true, if_false]
    rw [hsort, hmin, hmax]
    simp only [ge_iff_le, gt_iff_lt, z0, z1, le_fin, lt_fin]
    rcases cl with ⟨c1, c2⟩ | ⟨c1, c2, c3, c4, c5⟩ | ⟨c1, c2⟩ <;>
      rcases ch with ⟨d1, d2⟩ | ⟨d1, d2, d3, d4, d5⟩ | ⟨d1, d2⟩
    · have v0 : ¬ 0 ≤ min τl τh := not_le.2 (lt_of_le_of_lt (min_le_left _ _) c2)
      have v1 : ¬ 0 < max τl τh := not_lt.2 (max_le c2.le d2.le)
      simp only [v0, v1, decide_false, Bool.false_and, Bool.and_false, Bool.false_eq_true, if_false]
      exact PieceAcc.nothing hM hM' ma mb ba bb hE hS hle hθ hθ' (Or.inl d1)
    · rw [min_eq_left (by linarith), max_eq_right (by linarith)]
      have v0 : ¬ 0 ≤ τl := not_le.2 c2
      simp only [v0, d3, d4.le, decide_false, decide_true, Bool.false_and, Bool.and_true, Bool.false_eq_true, if_false, if_true]
      exact PieceAcc.first hM hM' ma mb ba bb hE hS hle hθ hθ' c1 d1 d2 d3 d4 d5
    · exact absurd ⟨c1.le, d1.le⟩ hnot
    · linarith
    · have v0 : 0 < min τl τh := lt_min c3 d3
      have v1 : max τl τh < 1 := max_lt c4 d4
      have v2 : min τl τh < 1 := lt_of_le_of_lt (min_le_left _ _) c4
      have v3 : 0 < max τl τh := lt_of_lt_of_le c3 (le_max_left _ _)
      simp only [v0.le, v1.le, v2, v3, decide_true, Bool.and_self, if_true]
      have e1 := abs_le.1 c5
      have e2 := abs_le.1 d5
      refine PieceAcc.middle hM hM' ma mb ba bb hE hS hle hθ hθ' c1 d2 v0 v1 min_le_max ?_ ?_
      · rw [abs_le]
        constructor
        · rcases min_choice τl τh with h | h <;> rw [h] <;> linarith
        · have := min_le_left τl τh; linarith
      · rw [abs_le]
        constructor
        · have := le_max_right τl τh; linarith
        · rcases max_choice τl τh with h | h <;> rw [h] <;> linarith
    · rw [min_eq_left (by linarith), max_eq_right (by linarith)]
      have v1 : ¬ τh ≤ 1 := not_le.2 d2
      simp only [v1, c3.le, c4, decide_false, decide_true, Bool.and_self, Bool.and_false, Bool.false_eq_true, if_false, if_true]
      exact PieceAcc.last hM hM' ma mb ba bb hE hS hle hθ hθ' d1 c1 c2 c3 c4 c5
    · linarith
    · linarith
    · have v0 : ¬ min τl τh < 1 := not_lt.2 (le_min c2.le d2.le)
      have v1 : ¬ max τl τh ≤ 1 := not_le.2 (lt_of_lt_of_le c2 (le_max_left _ _))
      simp only [v0, v1, decide_false, Bool.and_false, Bool.false_eq_true, if_false]
      exact PieceAcc.nothing hM hM' ma mb ba bb hE hS hle hθ hθ' (Or.inr c1)

end

section
variable {M D E ρ tol : ℚ} {l : List (Pt ℚ)} {a b : Pt ℚ} (hM : 1 / 2 ^ 100 ≤ M) (hM' : M ≤ 2 ^ 199)
  (hg : GenPos M D E ρ tol l a b) (ma : ModPt a) (mb : ModPt b) (ht : 0 ≤ tol)
include hM hM' hg ma mb ht

theorem GenPos.theta_pos : 0 < theta ρ := by
  have := hg.rho_pos hM hM' ma mb
  unfold theta; positivity

theorem GenPos.acc_eq : acc M E ρ = 8 * theta ρ * E + M / 2 ^ 49 := by
  unfold acc theta
  congr 1
  have := (hg.rho_pos hM hM' ma mb).ne'
  field_simp
  norm_num

theorem GenPos.ne : a ≠ b := by
  rintro rfl
  obtain ⟨v, hv⟩ := List.exists_mem_of_ne_nil _ hg.convex.ne_nil
  have h1 := hg.corners v hv
  have h2 : orient a a v = 0 := by unfold orient; ring
  rw [h2, abs_zero] at h1
  have := mul_pos (hg.rho_pos hM hM' ma mb) (pow_pos (hg.E_pos hM hM' ma mb) 2)
  linarith

theorem GenPos.slack_nonneg : 0 ≤ 2 * max tol (slack M D) := by
  have := le_max_left tol (slack M D)
  linarith

/-- The crossings are well away from the ends. -/
theorem GenPos.hit_far {s : Pt ℚ × Pt ℚ} (hs : s ∈ sides l ∨ s.swap ∈ sides l)
    (ho : (orient a b s.1 < 0 ∧ 0 < orient a b s.2) ∨ (orient a b s.2 < 0 ∧ 0 < orient a b s.1)) :
    8 * theta ρ < |hitAt a b s| ∧ 8 * theta ρ < |1 - hitAt a b s| := by
  have key : ∀ s ∈ sides l, ((orient a b s.1 < 0 ∧ 0 < orient a b s.2) ∨ (orient a b s.2 < 0 ∧ 0 < orient a b s.1)) →
      8 * theta ρ < |hitAt a b s| ∧ 8 * theta ρ < |1 - hitAt a b s| := by
    intro s hs ho
    have hM0 : 0 < M := lt_of_lt_of_le (by positivity) hM
    obtain ⟨x, x0, x1, hx⟩ := hit_on_side ho
    have hmono : 8 * theta ρ * E ≤ 2 * max tol (slack M D) + acc M E ρ := by
      rw [hg.acc_eq hM hM' ma mb ht]
      have := hg.slack_nonneg hM hM' ma mb ht
      have := div_nonneg hM0.le (show (0:ℚ) ≤ 2 ^ 49 by positivity)
      linarith
    constructor
    · by_contra h
      push Not at h
      refine hg.first s hs ⟨x, x0, x1, ?_⟩
      rw [← hx]
      have := within_params hg.length (s := 0) (t := hitAt a b s) (δ := 8 * theta ρ) (by rw [zero_sub, abs_neg]; exact h)
      rw [lineAt_zero] at this
      exact this.mono hmono
    · by_contra h
      push Not at h
      refine hg.second s hs ⟨x, x0, x1, ?_⟩
      rw [← hx]
      have := within_params hg.length (s := 1) (t := hitAt a b s) (δ := 8 * theta ρ) h
      rw [lineAt_one] at this
      exact this.mono hmono
  rcases hs with h | h
  · exact key s h ho
  · rw [← hitAt_swap]
    exact key _ h ho.symm

theorem GenPos.tests {poly : List (Pt ℚ)} (hpoly : poly = l ∨ poly = l.reverse) (ht' : tol ≤ 2 ^ 200) :
    (∃ r, pointInPolygonOrOnEdge (fp a) (poly.map fp) (fin tol) = .ok r ∧ (r = true ↔ InPoly l a)) ∧
    (∃ r, pointInPolygonOrOnEdge (fp b) (poly.map fp) (fin tol) = .ok r ∧ (r = true ↔ InPoly l b)) := by
  have hgp : GoodPoly M D poly := by
    rcases hpoly with rfl | rfl
    · exact hg.good
    · exact hg.good.reverse
  have hne : poly ≠ [] := by
    rcases hpoly with rfl | rfl
    · exact hg.convex.ne_nil
    · simpa using hg.convex.ne_nil
  have hacc : 0 ≤ acc M E ρ := by
    have hM0 : 0 < M := lt_of_lt_of_le (by positivity) hM
    have := hg.rho_pos hM hM' ma mb
    have := hg.E_pos hM hM' ma mb
    unfold acc; positivity
  have hmono : 2 * max tol (slack M D) ≤ 2 * max tol (slack M D) + acc M E ρ := by linarith
  have h200 : M ≤ 2 ^ 200 := hM'.trans (pow_le_pow_right₀ (by norm_num) (by norm_num))
  have habs : |tol| ≤ 2 ^ 200 := by rw [abs_of_nonneg ht]; exact ht'
  constructor
  · obtain ⟨r, h1, h2⟩ := test_fl hgp hne ⟨ma.1.2, ma.2.2⟩ h200 habs
    refine ⟨r, h1, h2.trans (accepts_clear hg.convex hg.good hM ht hpoly ?_)⟩
    rintro s hs ⟨x, x0, x1, hx⟩
    exact hg.first s hs ⟨x, x0, x1, hx.mono hmono⟩
  · obtain ⟨r, h1, h2⟩ := test_fl hgp hne ⟨mb.1.2, mb.2.2⟩ h200 habs
    refine ⟨r, h1, h2.trans (accepts_clear hg.convex hg.good hM ht hpoly ?_)⟩
    rintro s hs ⟨x, x0, x1, hx⟩
    exact hg.second s hs ⟨x, x0, x1, hx.mono hmono⟩

/-- The two crossings that the scan finds bound the piece of the line. -/
theorem GenPos.piece {poly : List (Pt ℚ)} (hpoly : poly = l ∨ poly = l.reverse) {s0 s1 : Pt ℚ × Pt ℚ} (m0 : s0 ∈ sides poly)
    (m1 : s1 ∈ sides poly)
    (h : ((orient a b s0.1 < 0 ∧ 0 < orient a b s0.2) ∧ (orient a b s1.2 < 0 ∧ 0 < orient a b s1.1)) ∨
      ((orient a b s1.1 < 0 ∧ 0 < orient a b s1.2) ∧ (orient a b s0.2 < 0 ∧ 0 < orient a b s0.1))) :
    ∃ lo hi, lo ≤ hi ∧ (∀ u, InPoly l (lineAt a b u) ↔ lo ≤ u ∧ u ≤ hi) ∧
      ((lo = hitAt a b s0 ∧ hi = hitAt a b s1) ∨ (lo = hitAt a b s1 ∧ hi = hitAt a b s0)) := by
  have hne := hg.ne hM hM' ma mb ht
  have key : ∀ U ∈ sides l, ∀ D ∈ sides l, (orient a b U.1 < 0 ∧ 0 < orient a b U.2) →
      (orient a b D.2 < 0 ∧ 0 < orient a b D.1) →
      hitAt a b D ≤ hitAt a b U ∧ (∀ u, InPoly l (lineAt a b u) ↔ hitAt a b D ≤ u ∧ u ≤ hitAt a b U) := by
    intro U hU D' hD h1 h2
    have := hg.convex.line_piece hne hU hD h1.1.le h1.2 h2.2 h2.1.le
    exact ⟨this.2, this.1⟩
  rcases hpoly with rfl | rfl
  · rcases h with ⟨h1, h2⟩ | ⟨h1, h2⟩
    · obtain ⟨g1, g2⟩ := key _ m0 _ m1 h1 h2
      exact ⟨_, _, g1, g2, Or.inr ⟨rfl, rfl⟩⟩
    · obtain ⟨g1, g2⟩ := key _ m1 _ m0 h1 h2
      exact ⟨_, _, g1, g2, Or.inl ⟨rfl, rfl⟩⟩
  · have sw : ∀ s, s ∈ sides l.reverse → s.swap ∈ sides l := by
      intro s hs
      obtain ⟨s', q1, rfl⟩ := List.mem_map.1 ((sides_reverse l).mem_iff.1 hs)
      simpa using q1
    rw [← hitAt_swap a b s0, ← hitAt_swap a b s1]
    rcases h with ⟨h1, h2⟩ | ⟨h1, h2⟩
    · obtain ⟨g1, g2⟩ := key _ (sw _ m1) _ (sw _ m0) h2 h1
      exact ⟨_, _, g1, g2, Or.inl ⟨rfl, rfl⟩⟩
    · obtain ⟨g1, g2⟩ := key _ (sw _ m0) _ (sw _ m1) h2 h1
      exact ⟨_, _, g1, g2, Or.inr ⟨rfl, rfl⟩⟩

/-- Cyrus-Beck in binary64, for an edge in general position. -/
theorem cyrusBeck_fl (ba : Bnd M a) (bb : Bnd M b) {poly : List (Pt ℚ)} (hpoly : poly = l ∨ poly = l.reverse)
    (ht' : tol ≤ 2 ^ 200) :
    ∃ r, cyrusBeck (fp a) (fp b) (poly.map fp) (fin tol) = .ok r ∧ PieceAcc (acc M E ρ) (InPoly l) a b r := by
  have hM0 : 0 < M := lt_of_lt_of_le (by positivity) hM
  have hab := hg.ne hM hM' ma mb ht
  have hθ := hg.theta_pos hM hM' ma mb ht
  obtain ⟨_, _, _, _, hθ'⟩ := hg.kappa hM hM' ma mb
  have hmem : ∀ v ∈ poly, v ∈ l := by
    rcases hpoly with rfl | rfl
    · exact fun v h => h
    · exact fun v h => List.mem_reverse.1 h
  have hne : poly ≠ [] := by
    rcases hpoly with rfl | rfl
    · exact hg.convex.ne_nil
    · simpa using hg.convex.ne_nil
  have hp' : 0 < poly.length := List.length_pos_iff.2 hne
  have hp : 0 < (poly.map fp).length := by rwa [List.length_map]
  have hcm : ∀ m, corner (poly.map fp) hp m = fp (corner poly hp' m) := corner_map fp poly hp hp'
  have hcl : ∀ m, corner poly hp' m ∈ l := fun m => hmem _ (List.getElem_mem _)
  have hneg : ∀ m, isNeg (fp a) (toVector (fp a) (fp b)) (poly.map fp) hp m = onLeft a b poly hp' m := by
    intro m
    obtain ⟨X, h1, _, h3⟩ := hg.side hM hM' ma mb (hcl m)
    unfold isNeg onLeft
    rw [hcm, h1, decide_eq_decide, ← h3]
    exact lt_fin X 0
  have hnz : ∀ m, (cross (toVector (fp a) (corner (poly.map fp) hp m)) (toVector (fp a) (fp b)) == 0) = false := by
    intro m
    obtain ⟨X, h1, h2, _⟩ := hg.side hM hM' ma mb (hcl m)
    rw [hcm, h1, beq_fin_zero]
    exact decide_eq_false h2
  have horne : ∀ m, orient a b (corner poly hp' m) ≠ 0 := by
    intro m h
    have h1 := hg.corners _ (hcl m)
    rw [h, abs_zero] at h1
    have := mul_pos (hg.rho_pos hM hM' ma mb) (pow_pos (hg.E_pos hM hM' ma mb) 2)
    linarith
  obtain ⟨⟨ra, ha1, ha2⟩, rb, hb1, hb2⟩ := hg.tests hM hM' ma mb ht hpoly ht'
  have hs0 : ((toVector (fp a) (fp b)).x == 0 && (toVector (fp a) (fp b)).y == 0) = false := by
    rw [toVector_fin ma mb]
    simp only [beq_fin_zero]
    rw [← Bool.decide_and]
    refine decide_eq_false ?_
    rintro ⟨h1, h2⟩
    exact hab (Pt.ext' ((rq_sub_zero_iff mb.1.1 ma.1.1).1 h1).symm ((rq_sub_zero_iff mb.2.1 ma.2.1).1 h2).symm)
  unfold cyrusBeck
  simp only [hs0, Bool.false_eq_true, if_false, ha1, hb1, ok_bind]
  by_cases hboth : (ra && rb) = true
  · rw [if_pos hboth]
    refine ⟨_, rfl, 0, 1, a, b, le_rfl, by norm_num, le_rfl, ?_, rfl, rfl, ?_, ?_⟩
    · intro u h0 h1
      refine ⟨fun _ => ⟨h0, h1⟩, fun _ => ?_⟩
      simp only [Bool.and_eq_true] at hboth
      have ia := ha2.1 hboth.1
      have ib := hb2.1 hboth.2
      exact ia.convex ib h0 h1
    · rw [lineAt_zero]
      refine within_self ?_ _
      rw [hg.acc_eq hM hM' ma mb ht]
      have := hg.E_pos hM hM' ma mb
      positivity
    · rw [lineAt_one]
      refine within_self ?_ _
      rw [hg.acc_eq hM hM' ma mb ht]
      have := hg.E_pos hM hM' ma mb
      positivity
  · rw [if_neg hboth, rd_corner_lt hp hp, ok_bind]
    obtain ⟨k, i0, i1, h3, h4⟩ := cbScan_clear (fp a) (fp b) (toVector (fp a) (fp b)) (poly.map fp) hp hnz
      (poly.map fp).length 0 0 (-1) (-1) (by omega) (Or.inl ⟨rfl, rfl, by omega⟩)
    rw [h3, ok_bind]
    simp only
    rcases h4 with ⟨rfl, h5⟩ | ⟨rfl, j0, j1, rfl, rfl, l0, l1, c0, c1, c2⟩
    · refine ⟨none, rfl, ?_⟩
      have hnc : ∀ s ∈ sides l, (0 < orient a b s.1 ↔ 0 < orient a b s.2) ∧ ¬ (orient a b s.1 = 0 ∧ orient a b s.2 = 0) := by
        have hq : ∀ s ∈ sides poly, (0 < orient a b s.1 ↔ 0 < orient a b s.2) ∧ ¬ (orient a b s.1 = 0 ∧ orient a b s.2 = 0) := by
          intro s hs
          obtain ⟨m, hm, rfl⟩ := side_is_corner hp' hs
          have := h5 m (by rwa [List.length_map])
          rw [hneg, hneg] at this
          unfold onLeft at this
          exact ⟨decide_eq_decide.1 this, fun h => horne m h.1⟩
        intro s hs
        rcases mem_sides_poly hpoly hs with h | h
        · exact hq s h
        · obtain ⟨q1, q2⟩ := hq _ h
          exact ⟨q1.symm, fun h => q2 ⟨h.2, h.1⟩⟩
      have hcs := hg.convex.no_crossing hab hnc
      refine ⟨fun h => hboth (by rw [ha2.2 h.1, hb2.2 h.2]; rfl), ?_⟩
      intro s t s0 s1 t0 t1 hs ht
      rcases lt_trichotomy s t with h | rfl | h
      · exact absurd ht (hcs s t s0 h t1 hs)
      · refine within_self ?_ _
        rw [hg.acc_eq hM hM' ma mb ‹_›]
        have := hg.E_pos hM hM' ma mb
        positivity
      · exact absurd hs (hcs t s t0 h s1 ht)
    · have hm : ∀ j : Nat, ((j : Int) + 1) % ((poly.map fp).length : Int) = (((j + 1) % (poly.map fp).length : Nat) : Int) := by
        intro j; push_cast; rfl
      rw [hneg, hneg] at c0 c1 c2
      rw [List.length_map] at l0 l1
      have m0 := side_corner hp' l0
      have m1 := side_corner hp' l1
      have sgn : ∀ m, (onLeft a b poly hp' m = true → 0 < orient a b (corner poly hp' m)) ∧
          (onLeft a b poly hp' m = false → orient a b (corner poly hp' m) < 0) := by
        intro m
        unfold onLeft
        refine ⟨of_decide_eq_true, fun h => lt_of_le_of_ne (not_lt.1 (of_decide_eq_false h)) (horne m)⟩
      have hdir : ((orient a b (corner poly hp' j0) < 0 ∧ 0 < orient a b (corner poly hp' (j0 + 1))) ∧
          (orient a b (corner poly hp' (j1 + 1)) < 0 ∧ 0 < orient a b (corner poly hp' j1))) ∨
          ((orient a b (corner poly hp' j1) < 0 ∧ 0 < orient a b (corner poly hp' (j1 + 1))) ∧
          (orient a b (corner poly hp' (j0 + 1)) < 0 ∧ 0 < orient a b (corner poly hp' j0))) := by
        cases hx : onLeft a b poly hp' j0
        · rw [hx] at c0 c1 c2
          exact Or.inl ⟨⟨(sgn _).2 hx, (sgn _).1 c0⟩, (sgn _).2 c2, (sgn _).1 c1⟩
        · rw [hx] at c0 c1 c2
          exact Or.inr ⟨⟨(sgn _).2 c1, (sgn _).1 c2⟩, (sgn _).2 c0, (sgn _).1 hx⟩
      obtain ⟨lo, hi, hle, hS, hcase⟩ := hg.piece hM hM' ma mb ht hpoly m0 m1 hdir
      have o0 : (orient a b (corner poly hp' j0) < 0 ∧ 0 < orient a b (corner poly hp' (j0 + 1))) ∨
          (orient a b (corner poly hp' (j0 + 1)) < 0 ∧ 0 < orient a b (corner poly hp' j0)) := by
        rcases hdir with h | h
        · exact Or.inl h.1
        · exact Or.inr h.2
      have o1 : (orient a b (corner poly hp' j1) < 0 ∧ 0 < orient a b (corner poly hp' (j1 + 1))) ∨
          (orient a b (corner poly hp' (j1 + 1)) < 0 ∧ 0 < orient a b (corner poly hp' j1)) := by
        rcases hdir with h | h
        · exact Or.inr h.2
        · exact Or.inl h.1
      obtain ⟨e0, τ0, g0, q0⟩ := hg.hit hM hM' ma mb (hcl j0) (hcl (j0 + 1)) o0
      obtain ⟨e1, τ1, g1, q1⟩ := hg.hit hM hM' ma mb (hcl j1) (hcl (j1 + 1)) o1
      obtain ⟨n0, n0'⟩ := hg.hit_far hM hM' ma mb ht (mem_sides_poly' hpoly m0) o0
      obtain ⟨n1, n1'⟩ := hg.hit_far hM hM' ma mb ht (mem_sides_poly' hpoly m1) o1
      simp only [two_ne_zero, if_false]
      unfold cbIntersections
      simp only [hm, rdI_nat]
      rw [rd_corner_lt hp (by rwa [List.length_map]), ok_bind, rd_corner hp, ok_bind,
        rd_corner_lt hp (by rwa [List.length_map]), ok_bind, rd_corner hp, ok_bind, hcm, hcm, hcm, hcm, g0, ok_bind, g1, ok_bind]
      have hfinish : ∀ t0 t1, ((t0, t1) = (τ0, τ1) ∨ (t0, t1) = (τ1, τ0)) → PieceAcc (acc M E ρ) (InPoly l) a b
          (cbFinish (fp a) (fp b) (toVector (fp a) (fp b)) ra rb (fin t0) (fin t1)) := by
        intro t0 t1 htt
        rw [hg.acc_eq hM hM' ma mb ht]
        rcases hcase with ⟨k1, k2⟩ | ⟨k1, k2⟩
        · rw [← k1] at q0 n0 n0'
          rw [← k2] at q1 n1 n1'
          exact cbFinish_fl hM hM' ma mb ba bb hg.length hS hle hθ hθ' ha2 hb2 hboth q0 q1 n0 n0' n1 n1' htt
        · rw [← k1] at q1 n1 n1'
          rw [← k2] at q0 n0 n0'
          exact cbFinish_fl hM hM' ma mb ba bb hg.length hS hle hθ hθ' ha2 hb2 hboth q1 q0 n1 n1' n0 n0' htt.symm
      cases e1
      · exact ⟨_, rfl, hfinish _ _ (Or.inl rfl)⟩
      · exact ⟨_, rfl, hfinish _ _ (Or.inr rfl)⟩

end

/-! ## Bounding boxes -/

theorem UsualPt.mod {M : ℚ} (hM' : M ≤ 2 ^ 199) {p : Pt ℚ} (h : UsualPt M p) : ModPt p := by
  have h200 : M ≤ 2 ^ 200 := hM'.trans (pow_le_pow_right₀ (by norm_num) (by norm_num))
  exact ⟨⟨h.1.1, h.1.2.1.trans h200⟩, h.2.1, h.2.2.1.trans h200⟩

theorem usualBox_of {M : ℚ} {l : List (Pt Fl)} (h : ∀ v ∈ l, ∃ q, v = fp q ∧ UsualPt M q) {b : Box Fl} (hb : IsBBox l b) :
    ∃ c, b = fbox c ∧ UsualBox M c := by
  obtain ⟨p1, m1, e1⟩ := hb.left
  obtain ⟨p2, m2, e2⟩ := hb.right
  obtain ⟨p3, m3, e3⟩ := hb.bottom
  obtain ⟨p4, m4, e4⟩ := hb.top
  have c1 := (hb.contains p1 m1).2.1
  have c3 := (hb.contains p3 m3).2.2.2
  obtain ⟨q1, rfl, n1⟩ := h p1 m1
  obtain ⟨q2, rfl, n2⟩ := h p2 m2
  obtain ⟨q3, rfl, n3⟩ := h p3 m3
  obtain ⟨q4, rfl, n4⟩ := h p4 m4
  simp only [fp] at e1 e2 e3 e4 c1 c3
  rw [← e2, le_fin] at c1
  rw [← e4, le_fin] at c3
  refine ⟨⟨q1.x, q2.x, q3.y, q4.y⟩, ?_, ⟨n1.1, n2.1, n3.2, n4.2, c1, c3⟩⟩
  cases b
  simp only [fbox] at *
  rw [e1, e2, e3, e4]

theorem bbox_of_map {l : List (Pt ℚ)} {c : Box ℚ} (h : IsBBox (l.map fp) (fbox c)) : IsBBox l c := by
  have key : ∀ (f : Pt ℚ → ℚ) (g : Pt Fl → Fl) (x : ℚ), (∀ q, g (fp q) = fin (f q)) → (∃ p ∈ l.map fp, g p = fin x) →
      ∃ p ∈ l, f p = x := by
    rintro f g x hfg ⟨p, hp, e⟩
    obtain ⟨q, hq, rfl⟩ := List.mem_map.1 hp
    rw [hfg] at e
    exact ⟨q, hq, Fl.fin.inj e⟩
  refine ⟨?_, key Pt.x Pt.x _ (fun _ => rfl) h.left, key Pt.x Pt.x _ (fun _ => rfl) h.right,
    key Pt.y Pt.y _ (fun _ => rfl) h.bottom, key Pt.y Pt.y _ (fun _ => rfl) h.top⟩
  intro p hp
  obtain ⟨h1, h2, h3, h4⟩ := h.contains _ (List.mem_map_of_mem hp)
  exact ⟨(le_fin _ _).1 h1, (le_fin _ _).1 h2, (le_fin _ _).1 h3, (le_fin _ _).1 h4⟩

/-- The box of the tree is the bounding box of all corners. -/
theorem treeBox_bbox {env : Env Fl} {vertices : List (Pt Fl)} {faces : IntArr} {fill : Int} {nb cpl : Nat} {t : CellTree Fl}
    {bt : BT} (hc : Constructed env vertices faces fill nb cpl t bt)
    (hnum : ∀ r ∈ faces.rows, ∀ v ∈ facePts vertices fill r, ∃ q, v = fp q) :
    IsBBox (faces.rows.flatMap (facePts vertices fill)) t.data.bbox := by
  have hbox : ∀ b ∈ t.data.bbCoords, ∃ r ∈ faces.rows, IsBBox (facePts vertices fill r) b := by
    intro b hb
    obtain ⟨i, r, hi, hi'⟩ := mem_of_getElem?_corr hc.boxes.length hb
    obtain ⟨b', c1, c2⟩ := hc.boxes.box i r hi
    rw [hi'] at c1
    cases c1
    exact ⟨r, List.mem_of_getElem? hi, c2⟩
  refine ⟨?_, ?_, ?_, ?_, ?_⟩
  · intro p hp
    obtain ⟨r, hr, hp'⟩ := List.mem_flatMap.1 hp
    obtain ⟨i, hi⟩ := List.getElem?_of_mem hr
    obtain ⟨b, c1, c2⟩ := hc.boxes.box i r hi
    obtain ⟨h1, h2, h3, h4⟩ := hc.bbox.contains b (List.mem_of_getElem? c1)
    obtain ⟨g1, g2, g3, g4⟩ := c2.contains p hp'
    exact ⟨NumOrd.le_trans h1 g1, NumOrd.le_trans g2 h2, NumOrd.le_trans h3 g3, NumOrd.le_trans g4 h4⟩
  · obtain ⟨b, hb, e⟩ := hc.bbox.left
    obtain ⟨r, hr, hbb⟩ := hbox b hb
    obtain ⟨p, hp, e'⟩ := hbb.left
    exact ⟨p, List.mem_flatMap.2 ⟨r, hr, hp⟩, e'.trans e.symm⟩
  · obtain ⟨b, hb, e⟩ := hc.bbox.right
    obtain ⟨r, hr, hbb⟩ := hbox b hb
    obtain ⟨p, hp, e'⟩ := hbb.right
    exact ⟨p, List.mem_flatMap.2 ⟨r, hr, hp⟩, e'.trans e.symm⟩
  · obtain ⟨b, hb, e⟩ := hc.bbox.bottom
    obtain ⟨r, hr, hbb⟩ := hbox b hb
    obtain ⟨p, hp, e'⟩ := hbb.bottom
    exact ⟨p, List.mem_flatMap.2 ⟨r, hr, hp⟩, e'.trans e.symm⟩
  · obtain ⟨b, hb, e⟩ := hc.bbox.top
    obtain ⟨r, hr, hbb⟩ := hbox b hb
    obtain ⟨p, hp, e'⟩ := hbb.top
    exact ⟨p, List.mem_flatMap.2 ⟨r, hr, hp⟩, e'.trans e.symm⟩

/-! ## The test for one face, and the query -/

section
variable {env : Env Fl} {M : ℚ} {vertices : List (Pt Fl)} {faces : IntArr} {fill : Int} {nb cpl : Nat} {t : CellTree Fl}
  {bt : BT} {a b : Pt ℚ} (hc : Constructed env vertices faces fill nb cpl t bt) (hcol : faces.ncol ≤ maxNVertex)
  (hM : 1 / 2 ^ 100 ≤ M) (hM' : M ≤ 2 ^ 199) (hv : ∀ v ∈ vertices, ∃ q, v = fp q ∧ UsualPt M q)
  (he : EdgeClear env M vertices faces fill a b)
include hc hcol hM hM' hv he

theorem cut_box (c : Box ℚ) (hb : UsualBox M c) (hav : AvoidsCorners M c a b) :
    ∃ r, cohenSutherland (fp a) (fp b) (fbox c) = .ok r ∧ (∀ w, Deep (M / 2 ^ 46) c w → OnNear 0 a b w → r ≠ none) ∧
      (r ≠ none → ∃ t, 0 ≤ t ∧ t ≤ 1 ∧ NearBox (M / 2 ^ 47) c (lineAt a b t)) := by
  obtain ⟨r, h1, h2, h3⟩ := cohenSutherland_fl hM hM' hb he.first he.second hav he.ne
  have e := cutErr_eq hM hM' hb he.first he.second hav
  refine ⟨r, h1, ?_, ?_⟩
  · rw [← e]; exact h2
  · have e2 : M / 2 ^ 47 = 4 * cutErr M := by
      have : M / 2 ^ 47 = M / 2 ^ 46 / 2 := by ring
      rw [this, ← e]; ring
    rw [e2]; exact h3

/-- The test for one face. -/
theorem edgeFaceIntersect_fl {j : Nat} {r : List Int} (hj : faces.rows[j]? = some r) :
    ∃ c res, t.data.bbCoords[j]? = some (fbox c) ∧ UsualBox M c ∧ IsBBox (facePts vertices fill r) (fbox c) ∧
      edgeFaceIntersect env t.data (fp a) (fp b) j = .ok res ∧
      (res.1 = true → ∃ t, 0 ≤ t ∧ t ≤ 1 ∧ NearBox (M / 2 ^ 47) c (lineAt a b t)) ∧
      ∀ D E ρ tol l, FaceClear env M D E ρ tol (facePts vertices fill r) c l a b →
        (∀ cd, res = (true, cd) → ∃ p q, cd = (some p, some q) ∧ PieceAcc (acc M E ρ) (InPoly l) a b (some (p, q))) ∧
        (res.1 = false → (∃ w, Deep (M / 2 ^ 46) c w ∧ OnNear 0 a b w) → PieceAcc (acc M E ρ) (InPoly l) a b none) := by
  have hr := List.mem_of_getElem? hj
  obtain ⟨box, hb, hb'⟩ := hc.boxes.box j r hj
  obtain ⟨c, rfl, hU⟩ := usualBox_of (fun v hv' => hv v (facePts_mem hv')) hb'
  obtain ⟨h1, h2, h3⟩ := hc.elements.polygon hcol hj
  obtain ⟨s, hs, hs1, hs2⟩ := cut_box hc hcol hM hM' hv he c hU (he.box r hr c hb')
  have ma := he.first.mod hM'
  have mb := he.second.mod hM'
  have clip : ∀ D E ρ tol l, FaceClear env M D E ρ tol (facePts vertices fill r) c l a b →
      ∃ cl, cyrusBeck (fp a) (fp b) (storedPts vertices fill faces.ncol r)
        (fmax env.minTol (env.tolFactor * fmax (fin c.xmax - fin c.xmin) (fin c.ymax - fin c.ymin))) = .ok cl ∧
        PieceAcc (acc M E ρ) (InPoly l) a b cl := by
    intro D E ρ tol l hf
    rw [hf.tol_eq]
    have hst : ∃ poly, (poly = l ∨ poly = l.reverse) ∧ storedPts vertices fill faces.ncol r = poly.map fp := by
      rcases h2 with h2 | h2 <;> rcases hf.corners with g | g <;> rw [h2, g]
      · exact ⟨l, Or.inl rfl, rfl⟩
      · exact ⟨l.reverse, Or.inr rfl, rfl⟩
      · exact ⟨l.reverse, Or.inr rfl, by rw [List.map_reverse]⟩
      · exact ⟨l, Or.inl rfl, by rw [List.map_reverse, List.reverse_reverse]⟩
    obtain ⟨poly, hp, e⟩ := hst
    rw [e]
    exact cyrusBeck_fl hM hM' hf.pos ma mb hf.tol_nonneg ⟨he.first.1.2.1, he.first.2.2.1⟩ ⟨he.second.1.2.1, he.second.2.2.1⟩
      hp hf.tol_le
  refine ⟨c, ?_⟩
  unfold edgeFaceIntersect
  rw [rd_of_some hb, ok_bind, hs, ok_bind]
  cases s with
  | none =>
    refine ⟨_, hb, hU, hb', rfl, fun h => (by cases h), ?_⟩
    intro D E ρ tol l hf
    refine ⟨fun cd h => (by cases h), ?_⟩
    rintro _ ⟨w, w1, w2⟩
    exact absurd rfl (hs1 w w1 w2)
  | some _ =>
    have hnear := hs2 (by simp)
    obtain ⟨B, e1, _⟩ := hc.elements.row j r hj
    rw [rd_of_some e1, ok_bind] at h1
    simp only
    rw [rd_of_some e1, ok_bind, hc.vertices_eq, h1, ok_bind]
    obtain ⟨D0, E0, ρ0, tol0, l0, hf0⟩ := he.face r hr c hb' hnear
    obtain ⟨cl, q1, _⟩ := clip _ _ _ _ _ hf0
    refine ⟨Clip.toIsect cl, hb, hU, hb', ?_, fun _ => hnear, ?_⟩
    · show ((cyrusBeck (fp a) (fp b) (storedPts vertices fill faces.ncol r)
        (fmax env.minTol (env.tolFactor * fmax (fin c.xmax - fin c.xmin) (fin c.ymax - fin c.ymin)))) >>= _) = _
      rw [q1]; rfl
    · intro D E ρ tol l hf
      obtain ⟨cl', q2, q3⟩ := clip _ _ _ _ _ hf
      rw [q1] at q2
      cases q2
      match cl, q3 with
      | none, q3 => exact ⟨fun cd h => (by cases h), fun _ _ => q3⟩
      | some (p, q), q3 =>
        refine ⟨fun cd h => ?_, fun h => by cases h⟩
        exact ⟨p, q, (congrArg Prod.snd h).symm, q3⟩

theorem edgeTotal_fl : EdgeTotal t.data (edgeFaceIntersect env t.data) (fp a) (fp b) := by
  have hpts : ∀ r ∈ faces.rows, ∀ v ∈ facePts vertices fill r, ∃ q, v = fp q := by
    intro r _ v hv'
    obtain ⟨q, h, _⟩ := hv v (facePts_mem hv')
    exact ⟨q, h⟩
  refine ⟨?_, fun nd _ _ => edgeSides_fl nd _ _ _, ?_⟩
  · have hB := treeBox_bbox hc hpts
    obtain ⟨c, e, hU⟩ := usualBox_of (M := M) (fun v hv' => by
      obtain ⟨r, _, h⟩ := List.mem_flatMap.1 hv'
      exact hv v (facePts_mem h)) hB
    rw [e] at hB ⊢
    obtain ⟨r, h, _⟩ := cut_box hc hcol hM hM' hv he c hU (he.whole c hB)
    exact ⟨r, h⟩
  · intro j hj
    have hj' : j < faces.rows.length := by rw [← hc.boxes.length]; exact hj
    obtain ⟨_, res, _, _, _, h, _⟩ := edgeFaceIntersect_fl hc hcol hM hM' hv he (List.getElem?_eq_getElem hj')
    exact ⟨res, h⟩

end

end Fl

end Celltree
