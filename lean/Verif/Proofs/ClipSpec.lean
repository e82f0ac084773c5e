import Verif.Spec.Geometry
import Mathlib.Tactic.Linarith
import Mathlib.Tactic.Ring
import Mathlib.Tactic.FieldSimp
import Mathlib.Tactic.LinearCombination

/-!
# Facts about clipping a segment
-/

namespace Celltree

variable {K : Type} [Field K] [LinearOrder K] [IsStrictOrderedRing K]

theorem Pt.ext' {a b : Pt K} (hx : a.x = b.x) (hy : a.y = b.y) : a = b := by
  cases a; cases b; simp only at hx hy; rw [hx, hy]

theorem lineAt_zero (a b : Pt K) : lineAt a b 0 = a := Pt.ext' (by simp [lineAt]) (by simp [lineAt])

theorem lineAt_one (a b : Pt K) : lineAt a b 1 = b := Pt.ext' (by simp [lineAt]) (by simp [lineAt])

theorem lineAt_lineAt (a b : Pt K) (s t v : K) :
    lineAt (lineAt a b s) (lineAt a b t) v = lineAt a b (s + v * (t - s)) :=
  Pt.ext' (by simp only [lineAt]; ring) (by simp only [lineAt]; ring)

theorem lineAt_inj {a b : Pt K} (hab : a ≠ b) {u v : K} (h : lineAt a b u = lineAt a b v) : u = v := by
  by_contra huv
  apply hab
  have hx : a.x + u * (b.x - a.x) = a.x + v * (b.x - a.x) := congrArg Pt.x h
  have hy : a.y + u * (b.y - a.y) = a.y + v * (b.y - a.y) := congrArg Pt.y h
  have hne : u - v ≠ 0 := sub_ne_zero.2 huv
  apply Pt.ext'
  · have : (u - v) * (b.x - a.x) = 0 := by linarith
    rcases mul_eq_zero.1 this with h | h
    · exact (hne h).elim
    · linarith
  · have : (u - v) * (b.y - a.y) = 0 := by linarith
    rcases mul_eq_zero.1 this with h | h
    · exact (hne h).elim
    · linarith

/-- Clipping a piece of the segment that contains everything in `S`. -/
theorem ClipSpec.extend {a b : Pt K} {S : Pt K → Prop} {σ ρ : K} (h0 : 0 ≤ σ) (h1 : σ < ρ) (h2 : ρ ≤ 1)
    (hS : ∀ v, 0 ≤ v → v ≤ 1 → S (lineAt a b v) → σ ≤ v ∧ v ≤ ρ) {r : Option (Pt K × Pt K)}
    (h : ClipSpec (lineAt a b σ) (lineAt a b ρ) S r) : ClipSpec a b S r := by
  have hd : 0 < ρ - σ := sub_pos.2 h1
  -- global parameter to local parameter
  have hloc : ∀ v, lineAt (lineAt a b σ) (lineAt a b ρ) ((v - σ) / (ρ - σ)) = lineAt a b v := by
    intro v
    rw [lineAt_lineAt, div_mul_cancel₀ _ hd.ne']
    congr 1; ring
  match r with
  | none =>
    intro u v hu huv hv hSu hSv
    obtain ⟨a1, a2⟩ := hS u hu (by linarith) hSu
    obtain ⟨b1, b2⟩ := hS v (by linarith) hv hSv
    refine h ((u - σ) / (ρ - σ)) ((v - σ) / (ρ - σ)) (div_nonneg (by linarith) hd.le) ?_ ?_ ?_ ?_
    · exact div_lt_div_of_pos_right (by linarith) hd
    · rw [div_le_one hd]; linarith
    · rw [hloc]; exact hSu
    · rw [hloc]; exact hSv
  | some (c, d) =>
    obtain ⟨s, t, hs, hst, ht, hc, hdd, hiff⟩ := h
    refine ⟨σ + s * (ρ - σ), σ + t * (ρ - σ), ?_, ?_, ?_, ?_, ?_, ?_⟩
    · have := mul_nonneg hs hd.le; linarith
    · have := mul_lt_mul_of_pos_right hst hd; linarith
    · have := mul_le_mul_of_nonneg_right ht hd.le; linarith
    · rw [hc, lineAt_lineAt]
    · rw [hdd, lineAt_lineAt]
    · intro u hu0 hu1
      have hle : ∀ w, σ + w * (ρ - σ) ≤ u ↔ w ≤ (u - σ) / (ρ - σ) := by
        intro w; rw [le_div_iff₀ hd]; constructor <;> intro <;> linarith
      have hge : ∀ w, u ≤ σ + w * (ρ - σ) ↔ (u - σ) / (ρ - σ) ≤ w := by
        intro w; rw [div_le_iff₀ hd]; constructor <;> intro <;> linarith
      rw [hle, hge]
      constructor
      · intro hSu
        obtain ⟨a1, a2⟩ := hS u hu0 hu1 hSu
        rw [← hloc u] at hSu
        exact (hiff _ (div_nonneg (by linarith) hd.le) (by rw [div_le_one hd]; linarith)).1 hSu
      · rintro ⟨h1, h2⟩
        rw [← hloc u]
        exact (hiff _ (le_trans hs h1) (le_trans h2 ht)).2 ⟨h1, h2⟩

/-- If everything in `S` is in one point there is nothing to clip. -/
theorem ClipSpec.of_point {a b : Pt K} {S : Pt K → Prop} (σ : K)
    (hS : ∀ v, 0 ≤ v → v ≤ 1 → S (lineAt a b v) → v = σ) : ClipSpec a b S none := by
  intro u v hu huv hv hSu hSv
  have h1 := hS u hu (by linarith) hSu
  have h2 := hS v (by linarith) hv hSv
  linarith

/-- The specification determines the result. -/
theorem ClipSpec.unique {a b : Pt K} {S : Pt K → Prop} {r r' : Option (Pt K × Pt K)}
    (h : ClipSpec a b S r) (h' : ClipSpec a b S r') : r = r' := by
  match r, r' with
  | none, none => rfl
  | none, some (c, d) =>
    obtain ⟨s, t, hs, hst, ht, _, _, hiff⟩ := h'
    exact (h s t hs hst ht ((hiff s hs (by linarith)).2 ⟨le_refl _, hst.le⟩)
      ((hiff t (by linarith) ht).2 ⟨hst.le, le_refl _⟩)).elim
  | some (c, d), none =>
    obtain ⟨s, t, hs, hst, ht, _, _, hiff⟩ := h
    exact (h' s t hs hst ht ((hiff s hs (by linarith)).2 ⟨le_refl _, hst.le⟩)
      ((hiff t (by linarith) ht).2 ⟨hst.le, le_refl _⟩)).elim
  | some (c, d), some (c', d') =>
    obtain ⟨s, t, hs, hst, ht, hc, hd, hiff⟩ := h
    obtain ⟨s', t', hs', hst', ht', hc', hd', hiff'⟩ := h'
    have h1 := (hiff' s hs (by linarith)).1 ((hiff s hs (by linarith)).2 ⟨le_refl _, hst.le⟩)
    have h2 := (hiff' t (by linarith) ht).1 ((hiff t (by linarith) ht).2 ⟨hst.le, le_refl _⟩)
    have h3 := (hiff s' hs' (by linarith)).1 ((hiff' s' hs' (by linarith)).2 ⟨le_refl _, hst'.le⟩)
    have h4 := (hiff t' (by linarith) ht').1 ((hiff' t' (by linarith) ht').2 ⟨hst'.le, le_refl _⟩)
    have e1 : s = s' := le_antisymm h3.1 h1.1
    have e2 : t = t' := le_antisymm h2.2 h4.2
    rw [hc, hd, hc', hd', e1, e2]

end Celltree
