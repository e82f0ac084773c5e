import Verif.Proofs.FloatWholePieces
import Verif.Props.FloatWholeCross
import Verif.Props.FloatPieces

/-!
# Segments between integer points and boxes at integer coordinates
-/

namespace Celltree.Fl

/-- The line parameters for which one coordinate is in an interval. -/
theorem whole_slab (a D lo hi : Int) (hD : D ≠ 0) : ∃ n n' : Int, (∀ τ : ℚ, lo ≤ a + τ * D → a + τ * D ≤ hi → n ≤ τ * |(D : ℚ)| ∧ τ * |(D : ℚ)| ≤ n') ∧
    ∀ τ d : ℚ, n + d ≤ τ * |(D : ℚ)| → τ * |(D : ℚ)| ≤ n' - d → lo + d ≤ a + τ * D ∧ a + τ * D ≤ hi - d := by
  rcases lt_or_gt_of_ne hD with h | h
  · have hq : |(D : ℚ)| = -D := abs_of_neg (by exact_mod_cast h)
    refine ⟨a - hi, a - lo, ?_, ?_⟩ <;> rw [hq] <;> push_cast
    · intro τ h1 h2; constructor <;> linarith
    · intro τ d h1 h2; constructor <;> linarith
  · have hq : |(D : ℚ)| = D := abs_of_pos (by exact_mod_cast h)
    refine ⟨lo - a, hi - a, ?_, ?_⟩ <;> rw [hq] <;> push_cast
    · intro τ h1 h2; constructor <;> linarith
    · intro τ d h1 h2; constructor <;> linarith

/-- A piece of a segment in an integer box is not too short, so that its middle is not close to the boundary. -/
theorem whole_deep {c : Box ℚ} (hc : WholeBox c) {a b : Pt ℚ} (ha : WholePt a) (hb : WholePt b) (hx : b.x - a.x ≠ 0) (hy : b.y - a.y ≠ 0)
    (bx : |b.x - a.x| ≤ 2 ^ 18) (by' : |b.y - a.y| ≤ 2 ^ 18) (h : SharesPiece a b (InBox c)) :
    ∃ w, Deep (1 / 2 ^ 20) c w ∧ OnNear 0 a b w := by
  obtain ⟨-, u, v, u0, uv, v1, iu, iv⟩ := h
  obtain ⟨x0, e1, -⟩ := hc.xmin
  obtain ⟨x1, e2, -⟩ := hc.xmax
  obtain ⟨y0, e3, -⟩ := hc.ymin
  obtain ⟨y1, e4, -⟩ := hc.ymax
  obtain ⟨ax, e5, -⟩ := ha.1
  obtain ⟨ay, e6, -⟩ := ha.2
  obtain ⟨X, e7, -⟩ := hb.1.sub ha.1
  obtain ⟨Y, e8, -⟩ := hb.2.sub ha.2
  rw [e7] at hx bx
  rw [e8] at hy by'
  have hX : X ≠ 0 := by exact_mod_cast hx
  have hY : Y ≠ 0 := by exact_mod_cast hy
  obtain ⟨n, n', p1, p2⟩ := whole_slab ax X x0 x1 hX
  obtain ⟨m, m', q1, q2⟩ := whole_slab ay Y y0 y1 hY
  have inb : ∀ τ, InBox c (lineAt a b τ) → (n ≤ τ * |(X : ℚ)| ∧ τ * |(X : ℚ)| ≤ n') ∧ (m ≤ τ * |(Y : ℚ)| ∧ τ * |(Y : ℚ)| ≤ m') := by
    rintro τ ⟨d1, d2, d3, d4⟩
    simp only [lineAt, e7, e8] at d1 d2 d3 d4
    simp only [e1, e2, e3, e4, e5, e6] at d1 d2 d3 d4
    exact ⟨p1 τ d1 d2, q1 τ d3 d4⟩
  obtain ⟨⟨u1, -⟩, u2, -⟩ := inb u iu
  obtain ⟨⟨-, w1⟩, -, w2⟩ := inb v iv
  have hX0 : (0 : ℚ) < |(X : ℚ)| := abs_pos.2 hx
  have hY0 : (0 : ℚ) < |(Y : ℚ)| := abs_pos.2 hy
  have cX : ((|X| : Int) : ℚ) = |(X : ℚ)| := by push_cast; rfl
  have cY : ((|Y| : Int) : ℚ) = |(Y : ℚ)| := by push_cast; rfl
  generalize hP : max 0 (max (n * |Y|) (m * |X|)) = P
  generalize hQ : min (|X| * |Y|) (min (n' * |Y|) (m' * |X|)) = Q
  have P0 : (0 : ℚ) ≤ P := by rw [← hP]; exact_mod_cast le_max_left _ _
  have P1 : (n : ℚ) * |(Y : ℚ)| ≤ P := by
    rw [← cY, ← hP]; exact_mod_cast (le_max_left _ _).trans (le_max_right _ _)
  have P2 : (m : ℚ) * |(X : ℚ)| ≤ P := by
    rw [← cX, ← hP]; exact_mod_cast (le_max_right _ _).trans (le_max_right _ _)
  have Q0 : (Q : ℚ) ≤ |(X : ℚ)| * |(Y : ℚ)| := by
    rw [← cX, ← cY, ← hQ]; exact_mod_cast min_le_left _ _
  have Q1 : (Q : ℚ) ≤ n' * |(Y : ℚ)| := by
    rw [← cY, ← hQ]; exact_mod_cast (min_le_right _ _).trans (min_le_left _ _)
  have Q2 : (Q : ℚ) ≤ m' * |(X : ℚ)| := by
    rw [← cX, ← hQ]; exact_mod_cast (min_le_right _ _).trans (min_le_right _ _)
  have hXY : (0 : ℚ) < |(X : ℚ)| * |(Y : ℚ)| := mul_pos hX0 hY0
  have Pu : (P : ℚ) ≤ u * (|(X : ℚ)| * |(Y : ℚ)|) := by
    rw [← hP]; push_cast
    refine max_le (mul_nonneg u0 hXY.le) (max_le ?_ ?_)
    · nlinarith [mul_le_mul_of_nonneg_right u1 hY0.le]
    · nlinarith [mul_le_mul_of_nonneg_right u2 hX0.le]
  have Qv : v * (|(X : ℚ)| * |(Y : ℚ)|) ≤ Q := by
    rw [← hQ]; push_cast
    refine le_min ?_ (le_min ?_ ?_)
    · nlinarith
    · nlinarith [mul_le_mul_of_nonneg_right w1 hY0.le]
    · nlinarith [mul_le_mul_of_nonneg_right w2 hX0.le]
  have hPQ : (P : ℚ) < Q := lt_of_le_of_lt Pu (lt_of_lt_of_le (mul_lt_mul_of_pos_right uv hXY) Qv)
  have hPQ' : (P : ℚ) + 1 ≤ Q := by
    have : P < Q := by exact_mod_cast hPQ
    exact_mod_cast this
  set τ : ℚ := (P + Q) / 2 / (|(X : ℚ)| * |(Y : ℚ)|) with hτ
  have eτ : τ * (|(X : ℚ)| * |(Y : ℚ)|) = (P + Q) / 2 := by rw [hτ, div_mul_cancel₀ _ hXY.ne']
  have τ0 : 0 ≤ τ := div_nonneg (by linarith) hXY.le
  have τ1 : τ ≤ 1 := (div_le_one hXY).2 (by linarith)
  have dx : n + 1 / 2 ^ 20 ≤ τ * |(X : ℚ)| ∧ τ * |(X : ℚ)| ≤ n' - 1 / 2 ^ 20 := by
    constructor
    · refine le_of_mul_le_mul_right ?_ hY0
      have : τ * |(X : ℚ)| * |(Y : ℚ)| = (P + Q) / 2 := by rw [← eτ]; ring
      rw [this]
      have : 1 / 2 ^ 20 * |(Y : ℚ)| ≤ 1 / 2 := by linarith
      linarith
    · refine le_of_mul_le_mul_right ?_ hY0
      have : τ * |(X : ℚ)| * |(Y : ℚ)| = (P + Q) / 2 := by rw [← eτ]; ring
      rw [this]
      have : 1 / 2 ^ 20 * |(Y : ℚ)| ≤ 1 / 2 := by linarith
      linarith
  have dy : m + 1 / 2 ^ 20 ≤ τ * |(Y : ℚ)| ∧ τ * |(Y : ℚ)| ≤ m' - 1 / 2 ^ 20 := by
    constructor
    · refine le_of_mul_le_mul_right ?_ hX0
      have : τ * |(Y : ℚ)| * |(X : ℚ)| = (P + Q) / 2 := by rw [← eτ]; ring
      rw [this]
      have : 1 / 2 ^ 20 * |(X : ℚ)| ≤ 1 / 2 := by linarith
      linarith
    · refine le_of_mul_le_mul_right ?_ hX0
      have : τ * |(Y : ℚ)| * |(X : ℚ)| = (P + Q) / 2 := by rw [← eτ]; ring
      rw [this]
      have : 1 / 2 ^ 20 * |(X : ℚ)| ≤ 1 / 2 := by linarith
      linarith
  have g1 := p2 τ _ dx.1 dx.2
  have g2 := q2 τ _ dy.1 dy.2
  refine ⟨lineAt a b τ, ?_, τ, τ0, τ1, by simp [Within]⟩
  unfold Deep
  simp only [lineAt, e7, e8]
  simp only [e1, e2, e3, e4, e5, e6]
  exact ⟨g1.1, g1.2, g2.1, g2.2⟩

/-- An integer point that is not on a segment between integer points is not close to it. -/
theorem whole_apart {a b v : Pt ℚ} (ha : WholePt a) (hb : WholePt b) (hv : WholePt v) (hab : a ≠ b) (bx : |b.x - a.x| ≤ 2 ^ 18)
    (by' : |b.y - a.y| ≤ 2 ^ 18) (h : ∀ τ : ℚ, 0 ≤ τ → τ ≤ 1 → lineAt a b τ ≠ v) : ¬ OnNear (1 / 2 ^ 20) a b v := by
  by_cases h0 : orient a b v = 0
  · rintro ⟨t, t0, t1, w1, w2⟩
    -- the point is on the line, before the first or behind the second end
    have small : ∀ p : Pt ℚ, WholePt p → |v.x - p.x| ≤ 1 / 2 ^ 20 → |v.y - p.y| ≤ 1 / 2 ^ 20 → v = p := by
      have key : ∀ x y : ℚ, Whole 25 x → Whole 25 y → |x - y| ≤ 1 / 2 ^ 20 → x = y := by
        rintro x y ⟨n, rfl, -⟩ ⟨m, rfl, -⟩ g
        by_contra hne
        have : (1 : ℚ) ≤ |((n - m : Int) : ℚ)| := by
          exact_mod_cast Int.one_le_abs (sub_ne_zero.2 (fun e => hne (by rw [e])))
        push_cast at this
        have : (1 : ℚ) ≤ 1 / 2 ^ 20 := this.trans g
        norm_num at this
      exact fun p hp g1 g2 => Pt.ext' (key _ _ hv.1 hp.1 g1) (key _ _ hv.2 hp.2 g2)
    obtain ⟨s, rfl⟩ : ∃ s, v = lineAt a b s := exists_lineAt hab h0
    have hs : s < 0 ∨ 1 < s := by
      by_contra g
      push Not at g
      exact h s g.1 g.2 rfl
    have mono : ∀ (x y : ℚ) (s' : ℚ), |s - s'| ≤ |s - t| → |x + s * (y - x) - (x + t * (y - x))| ≤ 1 / 2 ^ 20 →
        |x + s * (y - x) - (x + s' * (y - x))| ≤ 1 / 2 ^ 20 := by
      intro x y s' g1 g2
      have e : ∀ r : ℚ, x + s * (y - x) - (x + r * (y - x)) = (s - r) * (y - x) := fun r => by ring
      rw [e, abs_mul] at g2 ⊢
      exact (mul_le_mul_of_nonneg_right g1 (abs_nonneg _)).trans g2
    rcases hs with hs | hs
    · have g : |s - 0| ≤ |s - t| := by
        rw [abs_of_neg (by linarith), abs_of_neg (by linarith)]; linarith
      have := small (lineAt a b 0) (by rw [lineAt_zero]; exact ha) (mono _ _ 0 g w1) (mono _ _ 0 g w2)
      exact h 0 le_rfl zero_le_one this.symm
    · have g : |s - 1| ≤ |s - t| := by
        rw [abs_of_pos (by linarith), abs_of_pos (by linarith)]; linarith
      have := small (lineAt a b 1) (by rw [lineAt_one]; exact hb) (mono _ _ 1 g w1) (mono _ _ 1 g w2)
      exact h 1 zero_le_one le_rfl this.symm
  · refine not_onNear ?_
    have h1 : (1 : ℚ) ≤ |orient a b v| := by
      obtain ⟨ax, e5, -⟩ := ha.1
      obtain ⟨ay, e6, -⟩ := ha.2
      obtain ⟨bx', e1, -⟩ := hb.1
      obtain ⟨by'', e2, -⟩ := hb.2
      obtain ⟨vx, e3, -⟩ := hv.1
      obtain ⟨vy, e4, -⟩ := hv.2
      have e : orient a b v = (((bx' - ax) * (vy - ay) - (by'' - ay) * (vx - ax) : Int) : ℚ) := by
        unfold orient; rw [e1, e2, e3, e4, e5, e6]; push_cast; ring
      rw [e] at h0 ⊢
      exact_mod_cast Int.one_le_abs (fun g => h0 (by rw [g]; simp))
    have : 1 / 2 ^ 20 * (|b.x - a.x| + |b.y - a.y|) ≤ 1 / 2 ^ 20 * (2 ^ 18 + 2 ^ 18) :=
      mul_le_mul_of_nonneg_left (add_le_add bx by') (by positivity)
    refine lt_of_le_of_lt this (lt_of_lt_of_le (by norm_num) h1)

/-- The box test: it returns, and it does not miss a piece. -/
theorem whole_boxTest {c : Box ℚ} (hc : WholeBox c) (hn : c.Nonempty) {a b : Pt ℚ} (h : Run a b) (hd : BoxClear c a b) :
    ∃ r, cohenSutherland (fp a) (fp b) (fbox c) = .ok r ∧ (SharesPiece a b (InBox c) → r ≠ none) ∧ (r ≠ none → a ≠ b) := by
  by_cases hd' : Compass a b
  · obtain ⟨r, h1, h2⟩ := cohenSutherland_isSome hn a b
    refine ⟨clipFp r, by rw [whole_cohenSutherland hc hn h.first h.second hd', h1]; rfl, fun g => ?_, fun g => ?_⟩
    · obtain ⟨x, rfl⟩ := Option.isSome_iff_exists.1 (h2.2 g)
      simp [clipFp]
    · cases r with
      | none => exact absurd rfl g
      | some x => exact (h2.1 rfl).1
  · obtain ⟨bx, by', hv⟩ := hd.resolve_left hd'
    unfold Compass at hd'
    push Not at hd'
    have hab : a ≠ b := by
      rintro rfl
      exact hd'.1 (sub_self _)
    have wh : ∀ v ∈ corners c, WholePt v := by
      intro v hv
      simp only [corners, List.mem_cons, List.not_mem_nil, or_false] at hv
      rcases hv with rfl | rfl | rfl | rfl
      · exact ⟨hc.xmin, hc.ymin⟩
      · exact ⟨hc.xmin, hc.ymax⟩
      · exact ⟨hc.xmax, hc.ymin⟩
      · exact ⟨hc.xmax, hc.ymax⟩
    have hM : (1 : ℚ) / 2 ^ 100 ≤ 2 ^ 26 := by norm_num
    have hM' : (2 : ℚ) ^ 26 ≤ 2 ^ 199 := by norm_num
    have eM : (2 : ℚ) ^ 26 / 2 ^ 46 = 1 / 2 ^ 20 := by norm_num
    have hU : UsualBox (2 ^ 26) c := by
      have k1 := Ex.usual_of_whole (p := ⟨c.xmin, c.ymin⟩) ⟨hc.xmin, hc.ymin⟩
      have k2 := Ex.usual_of_whole (p := ⟨c.xmax, c.ymax⟩) ⟨hc.xmax, hc.ymax⟩
      exact ⟨k1.1, k2.1, k1.2, k2.2, hn.x, hn.y⟩
    have hav : AvoidsCorners (2 ^ 26) c a b := by
      intro v hv'
      rw [eM]
      exact whole_apart h.first h.second (wh v hv') hab bx by' (hv v hv')
    obtain ⟨r, h1, h2, h3⟩ := cohenSutherland_fl hM hM' hU (Ex.usual_of_whole h.first) (Ex.usual_of_whole h.second) hav hab
    refine ⟨r, h1, fun g => ?_, fun _ => hab⟩
    obtain ⟨w, w1, w2⟩ := whole_deep hc h.first h.second hd'.1 hd'.2.1 bx by' g
    refine h2 w ?_ w2
    rw [cutErr_eq hM hM' hU (Ex.usual_of_whole h.first) (Ex.usual_of_whole h.second) hav, eM]
    exact w1

end Celltree.Fl
