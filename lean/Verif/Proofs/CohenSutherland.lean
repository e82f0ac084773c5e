import Verif.Proofs.ClipSpec
import Verif.Proofs.PointTest
import Verif.Model.Algorithms

/-!
# Cohen-Sutherland in exact arithmetic
-/

set_option linter.unusedSectionVars false

namespace Celltree

variable {K : Type} [Field K] [LinearOrder K] [IsStrictOrderedRing K]

/-- A box that contains a point. -/
structure Box.Nonempty (b : Box K) : Prop where
  x : b.xmin ≤ b.xmax
  y : b.ymin ≤ b.ymax

theorem getClip_bits {a : Pt K} {box : Box K} (hb : box.Nonempty) :
    (getClip a box &&& 8 ≠ 0 ↔ box.ymax < a.y) ∧ (getClip a box &&& 4 ≠ 0 ↔ a.y < box.ymin) ∧
    (getClip a box &&& 2 ≠ 0 ↔ box.xmax < a.x) ∧ (getClip a box &&& 1 ≠ 0 ↔ a.x < box.xmin) ∧ getClip a box < 16 := by
  have hx := hb.x
  have hy := hb.y
  unfold getClip
  by_cases h1 : a.x < box.xmin <;> by_cases h2 : box.xmax < a.x <;> by_cases h3 : a.y < box.ymin <;>
    by_cases h4 : box.ymax < a.y <;>
    first
    | (exfalso; linarith)
    | simp [h1, h2, h3, h4]

theorem getClip_zero {a : Pt K} {box : Box K} (hb : box.Nonempty) : getClip a box = 0 ↔ InBox box a := by
  unfold getClip InBox
  have hx := hb.x
  have hy := hb.y
  by_cases h1 : a.x < box.xmin <;> by_cases h2 : box.xmax < a.x <;> by_cases h3 : a.y < box.ymin <;>
    by_cases h4 : box.ymax < a.y <;>
    first
    | (exfalso; linarith)
    | (simp [h1, h2, h3, h4, not_lt.1]; try linarith)
    | (simp [h1, h2, h3, h4]; exact ⟨not_lt.1 h1, not_lt.1 h2, not_lt.1 h3, not_lt.1 h4⟩)

theorem and_bits_fin : ∀ k1 k2 : Fin 16, decide (k1.val &&& k2.val ≠ 0) =
    ((decide (k1.val &&& 8 ≠ 0) && decide (k2.val &&& 8 ≠ 0)) || (decide (k1.val &&& 4 ≠ 0) && decide (k2.val &&& 4 ≠ 0)) ||
    (decide (k1.val &&& 2 ≠ 0) && decide (k2.val &&& 2 ≠ 0)) || (decide (k1.val &&& 1 ≠ 0) && decide (k2.val &&& 1 ≠ 0))) := by
  decide

theorem and_bits (k1 : Nat) (h1 : k1 < 16) (k2 : Nat) (h2 : k2 < 16) :
    ((k1 &&& k2 ≠ 0) ↔ (k1 &&& 8 ≠ 0 ∧ k2 &&& 8 ≠ 0) ∨ (k1 &&& 4 ≠ 0 ∧ k2 &&& 4 ≠ 0) ∨
    (k1 &&& 2 ≠ 0 ∧ k2 &&& 2 ≠ 0) ∨ (k1 &&& 1 ≠ 0 ∧ k2 &&& 1 ≠ 0)) := by
  have := and_bits_fin ⟨k1, h1⟩ ⟨k2, h2⟩
  refine (decide_eq_true_iff (p := k1 &&& k2 ≠ 0)).symm.trans ?_
  rw [this]
  simp only [Bool.or_eq_true, Bool.and_eq_true, decide_eq_true_eq, or_assoc]

theorem zero_bits : ∀ k : Nat, k < 16 → (k = 0 ↔ ¬ k &&& 8 ≠ 0 ∧ ¬ k &&& 4 ≠ 0 ∧ ¬ k &&& 2 ≠ 0 ∧ ¬ k &&& 1 ≠ 0) := by decide

/-- Both ends are beyond the same side. -/
def SameSide (box : Box K) (a b : Pt K) : Prop :=
  (box.ymax < a.y ∧ box.ymax < b.y) ∨ (a.y < box.ymin ∧ b.y < box.ymin) ∨ (box.xmax < a.x ∧ box.xmax < b.x) ∨
    (a.x < box.xmin ∧ b.x < box.xmin)

theorem getClip_and {a b : Pt K} {box : Box K} (hb : box.Nonempty) :
    getClip a box &&& getClip b box ≠ 0 ↔ SameSide box a b := by
  obtain ⟨a1, a2, a3, a4, a5⟩ := getClip_bits (a := a) hb
  obtain ⟨b1, b2, b3, b4, b5⟩ := getClip_bits (a := b) hb
  rw [and_bits _ a5 _ b5, a1, a2, a3, a4, b1, b2, b3, b4]
  rfl

theorem SameSide.not_inBox {box : Box K} {a b : Pt K} (h : SameSide box a b) {u : K} (h0 : 0 ≤ u) (h1 : u ≤ 1) :
    ¬ InBox box (lineAt a b u) := by
  rintro ⟨g1, g2, g3, g4⟩
  simp only [lineAt] at g1 g2 g3 g4
  have key : ∀ p q c : K, c < p → c < q → c < p + u * (q - p) := by
    intro p q c hp hq
    rcases lt_or_eq_of_le h1 with h | h
    · nlinarith [mul_pos (sub_pos.2 h) (sub_pos.2 hp), mul_nonneg h0 (sub_pos.2 hq).le]
    · rw [h]; linarith
  have key' : ∀ p q c : K, p < c → q < c → p + u * (q - p) < c := by
    intro p q c hp hq
    have := key (-p) (-q) (-c) (by linarith) (by linarith)
    nlinarith
  rcases h with ⟨ha, hb⟩ | ⟨ha, hb⟩ | ⟨ha, hb⟩ | ⟨ha, hb⟩
  · have := key _ _ _ ha hb; linarith
  · have := key' _ _ _ ha hb; linarith
  · have := key _ _ _ ha hb; linarith
  · have := key' _ _ _ ha hb; linarith

theorem inBox_convex {box : Box K} {a b : Pt K} (ha : InBox box a) (hb : InBox box b) {u : K} (h0 : 0 ≤ u) (h1 : u ≤ 1) :
    InBox box (lineAt a b u) := by
  obtain ⟨a1, a2, a3, a4⟩ := ha
  obtain ⟨b1, b2, b3, b4⟩ := hb
  have key : ∀ p q c : K, c ≤ p → c ≤ q → c ≤ p + u * (q - p) := by
    intro p q c hp hq
    nlinarith [mul_nonneg (sub_nonneg.2 h1) (sub_nonneg.2 hp), mul_nonneg h0 (sub_nonneg.2 hq)]
  have key' : ∀ p q c : K, p ≤ c → q ≤ c → p + u * (q - p) ≤ c := by
    intro p q c hp hq
    nlinarith [mul_nonneg (sub_nonneg.2 h1) (sub_nonneg.2 hp), mul_nonneg h0 (sub_nonneg.2 hq)]
  exact ⟨key _ _ _ a1 b1, key' _ _ _ a2 b2, key _ _ _ a3 b3, key' _ _ _ a4 b4⟩

/-! ## Cutting at one bound -/

/-- Cut at an upper bound with the first end beyond it. -/
theorem cut_first {p q c : K} (hp : c < p) (hq : q ≤ c) :
    0 < (c - p) / (q - p) ∧ (c - p) / (q - p) ≤ 1 ∧ p + (c - p) / (q - p) * (q - p) = c ∧
      ∀ v, p + v * (q - p) ≤ c → (c - p) / (q - p) ≤ v := by
  have hd : q - p < 0 := by linarith
  have hd' : (0 : K) < p - q := by linarith
  have e : (c - p) / (q - p) = (p - c) / (p - q) := by rw [← neg_sub p c, ← neg_sub p q, neg_div_neg_eq]
  refine ⟨?_, ?_, ?_, ?_⟩
  · rw [e]; exact div_pos (by linarith) hd'
  · rw [e, div_le_one hd']; linarith
  · rw [div_mul_cancel₀ _ hd.ne]; ring
  · intro v hv
    rw [e, div_le_iff₀ hd']; linarith

/-- Cut at an upper bound with the second end beyond it. -/
theorem cut_second {p q c : K} (hp : p ≤ c) (hq : c < q) :
    0 ≤ (c - p) / (q - p) ∧ (c - p) / (q - p) < 1 ∧ p + (c - p) / (q - p) * (q - p) = c ∧
      ∀ v, p + v * (q - p) ≤ c → v ≤ (c - p) / (q - p) := by
  have hd : 0 < q - p := by linarith
  refine ⟨div_nonneg (by linarith) hd.le, ?_, ?_, ?_⟩
  · rw [div_lt_one hd]; linarith
  · rw [div_mul_cancel₀ _ hd.ne']; ring
  · intro v hv
    rw [le_div_iff₀ hd]; linarith

/-- Cut at a lower bound with the first end beyond it. -/
theorem cut_first' {p q c : K} (hp : p < c) (hq : c ≤ q) :
    0 < (c - p) / (q - p) ∧ (c - p) / (q - p) ≤ 1 ∧ p + (c - p) / (q - p) * (q - p) = c ∧
      ∀ v, c ≤ p + v * (q - p) → (c - p) / (q - p) ≤ v := by
  have hd : 0 < q - p := by linarith
  refine ⟨div_pos (by linarith) hd, ?_, ?_, ?_⟩
  · rw [div_le_one hd]; linarith
  · rw [div_mul_cancel₀ _ hd.ne']; ring
  · intro v hv
    rw [div_le_iff₀ hd]; linarith

/-- Cut at a lower bound with the second end beyond it. -/
theorem cut_second' {p q c : K} (hp : c ≤ p) (hq : q < c) :
    0 ≤ (c - p) / (q - p) ∧ (c - p) / (q - p) < 1 ∧ p + (c - p) / (q - p) * (q - p) = c ∧
      ∀ v, c ≤ p + v * (q - p) → v ≤ (c - p) / (q - p) := by
  have hd : q - p < 0 := by linarith
  have hd' : (0 : K) < p - q := by linarith
  have e : (c - p) / (q - p) = (p - c) / (p - q) := by rw [← neg_sub p c, ← neg_sub p q, neg_div_neg_eq]
  refine ⟨?_, ?_, ?_, ?_⟩
  · rw [e]; exact div_nonneg (by linarith) hd'.le
  · rw [e, div_lt_one hd']; linarith
  · rw [div_mul_cancel₀ _ hd.ne]; ring
  · intro v hv
    rw [e, le_div_iff₀ hd']; linarith

/-- What a cut at parameter `τ` does: the cut point satisfies the bound that was violated. `vert` tells whether the bound
was on y. -/
structure Cut (box : Box K) (a b : Pt K) (opt : Nat) (vert : Bool) (τ : K) : Prop where
  eq : csCut a (b.x - a.x) (b.y - a.y) box opt = .ok (lineAt a b τ)
  y : vert = true → box.ymin ≤ (lineAt a b τ).y ∧ (lineAt a b τ).y ≤ box.ymax
  x : vert = false → box.xmin ≤ (lineAt a b τ).x ∧ (lineAt a b τ).x ≤ box.xmax

theorem csCut_eqs {box : Box K} (hb : box.Nonempty) (a b : Pt K) (opt : Nat) :
    (opt &&& 8 ≠ 0 → b.y - a.y ≠ 0 → Cut box a b opt true ((box.ymax - a.y) / (b.y - a.y))) ∧
    (¬ opt &&& 8 ≠ 0 → opt &&& 4 ≠ 0 → b.y - a.y ≠ 0 → Cut box a b opt true ((box.ymin - a.y) / (b.y - a.y))) ∧
    (¬ opt &&& 8 ≠ 0 → ¬ opt &&& 4 ≠ 0 → opt &&& 2 ≠ 0 → b.x - a.x ≠ 0 →
      Cut box a b opt false ((box.xmax - a.x) / (b.x - a.x))) ∧
    (¬ opt &&& 8 ≠ 0 → ¬ opt &&& 4 ≠ 0 → ¬ opt &&& 2 ≠ 0 → opt &&& 1 ≠ 0 → b.x - a.x ≠ 0 →
      Cut box a b opt false ((box.xmin - a.x) / (b.x - a.x))) := by
  have hx := hb.x
  have hy := hb.y
  refine ⟨?_, ?_, ?_, ?_⟩
  · intro h8 hne
    have e : (lineAt a b ((box.ymax - a.y) / (b.y - a.y))).y = box.ymax := by
      simp only [lineAt]; rw [div_mul_cancel₀ _ hne]; ring
    refine ⟨?_, fun _ => by rw [e]; exact ⟨hy, le_refl _⟩, nofun⟩
    unfold csCut
    rw [if_pos h8, fdiv_eq hne, ok_bind]
    congr 1
    apply Pt.ext'
    · simp only [lineAt]; field_simp
    · rw [e]
  · intro h8 h4 hne
    have e : (lineAt a b ((box.ymin - a.y) / (b.y - a.y))).y = box.ymin := by
      simp only [lineAt]; rw [div_mul_cancel₀ _ hne]; ring
    refine ⟨?_, fun _ => by rw [e]; exact ⟨le_refl _, hy⟩, nofun⟩
    unfold csCut
    rw [if_neg h8, if_pos h4, fdiv_eq hne, ok_bind]
    congr 1
    apply Pt.ext'
    · simp only [lineAt]; field_simp
    · rw [e]
  · intro h8 h4 h2 hne
    have e : (lineAt a b ((box.xmax - a.x) / (b.x - a.x))).x = box.xmax := by
      simp only [lineAt]; rw [div_mul_cancel₀ _ hne]; ring
    refine ⟨?_, nofun, fun _ => by rw [e]; exact ⟨hx, le_refl _⟩⟩
    unfold csCut
    rw [if_neg h8, if_neg h4, if_pos h2, fdiv_eq hne, ok_bind]
    congr 1
    apply Pt.ext'
    · rw [e]
    · simp only [lineAt]; field_simp
  · intro h8 h4 h2 h1 hne
    have e : (lineAt a b ((box.xmin - a.x) / (b.x - a.x))).x = box.xmin := by
      simp only [lineAt]; rw [div_mul_cancel₀ _ hne]; ring
    refine ⟨?_, nofun, fun _ => by rw [e]; exact ⟨le_refl _, hx⟩⟩
    unfold csCut
    rw [if_neg h8, if_neg h4, if_neg h2, if_pos h1, fdiv_eq hne, ok_bind]
    congr 1
    apply Pt.ext'
    · rw [e]
    · simp only [lineAt]; field_simp

/-- Outside in y, or (if not) outside in x. -/
def OutY (box : Box K) (a : Pt K) : Prop := box.ymax < a.y ∨ a.y < box.ymin

instance (box : Box K) (a : Pt K) : Decidable (OutY box a) := by unfold OutY; infer_instance
instance (box : Box K) (a : Pt K) : Decidable (InBox box a) := by unfold InBox; infer_instance
instance (box : Box K) (a b : Pt K) : Decidable (SameSide box a b) := by unfold SameSide; infer_instance

/-- The cut for the first end. -/
theorem cut_a {box : Box K} (hb : box.Nonempty) {a b : Pt K} (hs : ¬ SameSide box a b) (ha : ¬ InBox box a) :
    ∃ τ, Cut box a b (getClip a box) (decide (OutY box a)) τ ∧ 0 < τ ∧ τ ≤ 1 ∧
      ∀ v, InBox box (lineAt a b v) → τ ≤ v := by
  obtain ⟨c8, c4, c2, c1, hlt⟩ := getClip_bits (a := a) hb
  obtain ⟨e8, e4, e2, e1⟩ := csCut_eqs hb a b (getClip a box)
  rw [c8] at e8 e4 e2 e1
  rw [c4] at e4 e2 e1
  rw [c2] at e2 e1
  rw [c1] at e1
  unfold SameSide at hs
  push Not at hs
  obtain ⟨s1, s2, s3, s4⟩ := hs
  by_cases h8 : box.ymax < a.y
  · have hy : OutY box a := Or.inl h8
    obtain ⟨g1, g2, g3, g4⟩ := cut_first h8 (s1 h8)
    rw [decide_eq_true hy]
    exact ⟨_, e8 h8 (by have := s1 h8; intro h; linarith), g1, g2, fun v hv => g4 v hv.2.2.2⟩
  by_cases h4 : a.y < box.ymin
  · have hy : OutY box a := Or.inr h4
    obtain ⟨g1, g2, g3, g4⟩ := cut_first' h4 (s2 h4)
    rw [decide_eq_true hy]
    exact ⟨_, e4 h8 h4 (by have := s2 h4; intro h; linarith), g1, g2, fun v hv => g4 v hv.2.2.1⟩
  have hy : ¬ OutY box a := by rintro (h | h) <;> contradiction
  rw [decide_eq_false hy]
  by_cases h2 : box.xmax < a.x
  · obtain ⟨g1, g2, g3, g4⟩ := cut_first h2 (s3 h2)
    exact ⟨_, e2 h8 h4 h2 (by have := s3 h2; intro h; linarith), g1, g2, fun v hv => g4 v hv.2.1⟩
  by_cases h1 : a.x < box.xmin
  · obtain ⟨g1, g2, g3, g4⟩ := cut_first' h1 (s4 h1)
    exact ⟨_, e1 h8 h4 h2 h1 (by have := s4 h1; intro h; linarith), g1, g2, fun v hv => g4 v hv.1⟩
  exact (ha ⟨not_lt.1 h1, not_lt.1 h2, not_lt.1 h4, not_lt.1 h8⟩).elim

/-- The cut for the second end, if the first is inside. -/
theorem cut_b {box : Box K} (hb : box.Nonempty) {a b : Pt K} (ha : InBox box a) (hbo : ¬ InBox box b) :
    ∃ τ, Cut box a b (getClip b box) (decide (OutY box b)) τ ∧ 0 ≤ τ ∧ τ < 1 ∧
      ∀ v, InBox box (lineAt a b v) → v ≤ τ := by
  obtain ⟨c8, c4, c2, c1, hlt⟩ := getClip_bits (a := b) hb
  obtain ⟨e8, e4, e2, e1⟩ := csCut_eqs hb a b (getClip b box)
  rw [c8] at e8 e4 e2 e1
  rw [c4] at e4 e2 e1
  rw [c2] at e2 e1
  rw [c1] at e1
  obtain ⟨s4, s3, s2, s1⟩ := ha
  by_cases h8 : box.ymax < b.y
  · have hy : OutY box b := Or.inl h8
    obtain ⟨g1, g2, g3, g4⟩ := cut_second s1 h8
    rw [decide_eq_true hy]
    exact ⟨_, e8 h8 (by intro h; linarith), g1, g2, fun v hv => g4 v hv.2.2.2⟩
  by_cases h4 : b.y < box.ymin
  · have hy : OutY box b := Or.inr h4
    obtain ⟨g1, g2, g3, g4⟩ := cut_second' s2 h4
    rw [decide_eq_true hy]
    exact ⟨_, e4 h8 h4 (by intro h; linarith), g1, g2, fun v hv => g4 v hv.2.2.1⟩
  have hy : ¬ OutY box b := by rintro (h | h) <;> contradiction
  rw [decide_eq_false hy]
  by_cases h2 : box.xmax < b.x
  · obtain ⟨g1, g2, g3, g4⟩ := cut_second s3 h2
    exact ⟨_, e2 h8 h4 h2 (by intro h; linarith), g1, g2, fun v hv => g4 v hv.2.1⟩
  by_cases h1 : b.x < box.xmin
  · obtain ⟨g1, g2, g3, g4⟩ := cut_second' s4 h1
    exact ⟨_, e1 h8 h4 h2 h1 (by intro h; linarith), g1, g2, fun v hv => g4 v hv.1⟩
  exact (hbo ⟨not_lt.1 h1, not_lt.1 h2, not_lt.1 h4, not_lt.1 h8⟩).elim

/-- Number of cuts an end can still csNeed. -/
def csWeight (box : Box K) (a : Pt K) : Nat := if InBox box a then 0 else if OutY box a then 2 else 1

/-- Rounds that the loop needs. -/
def csNeed (box : Box K) (a b : Pt K) : Nat := if SameSide box a b then 1 else csWeight box a + csWeight box b

theorem eqv_zero (a b : Pt K) : ((b.x - a.x == 0) && (b.y - a.y == 0)) = true ↔ a = b := by
  simp only [Bool.and_eq_true, beq_iff_eq, sub_eq_zero]
  constructor
  · rintro ⟨h1, h2⟩; exact Pt.ext' h1.symm h2.symm
  · rintro rfl; exact ⟨rfl, rfl⟩

theorem csLoop_spec {box : Box K} (hb : box.Nonempty) (fuel : Nat) (a b : Pt K) (hab : a ≠ b) (hf : csNeed box a b ≤ fuel) :
    ∃ r, csLoop box fuel a b (getClip a box) (getClip b box) (b.x - a.x) (b.y - a.y) = .ok r ∧
      ClipSpec a b (InBox box) r := by
  induction fuel generalizing a b with
  | zero =>
    unfold csNeed at hf
    have hs : ¬ SameSide box a b := by intro h; rw [if_pos h] at hf; omega
    rw [if_neg hs] at hf
    have ha : InBox box a := by
      by_contra h; unfold csWeight at hf; rw [if_neg h] at hf; split at hf <;> omega
    have hb' : InBox box b := by
      by_contra h; unfold csWeight at hf; rw [if_neg h] at hf; split at hf <;> split at hf <;> omega
    unfold csLoop
    rw [(getClip_zero hb).2 ha, (getClip_zero hb).2 hb']
    refine ⟨some (a, b), rfl, 0, 1, le_refl _, one_pos, le_refl _, (lineAt_zero a b).symm, (lineAt_one a b).symm, ?_⟩
    intro u h0 h1
    exact ⟨fun _ => ⟨h0, h1⟩, fun _ => inBox_convex ha hb' h0 h1⟩
  | succ fuel ih =>
    unfold csLoop
    by_cases hz : getClip a box ||| getClip b box = 0
    · rw [if_pos hz]
      obtain ⟨z1, z2⟩ := Nat.or_eq_zero_iff.1 hz
      have ha := (getClip_zero hb).1 z1
      have hb' := (getClip_zero hb).1 z2
      refine ⟨some (a, b), rfl, 0, 1, le_refl _, one_pos, le_refl _, (lineAt_zero a b).symm, (lineAt_one a b).symm, ?_⟩
      intro u h0 h1
      exact ⟨fun _ => ⟨h0, h1⟩, fun _ => inBox_convex ha hb' h0 h1⟩
    rw [if_neg hz]
    simp only
    by_cases hs : SameSide box a b
    · rw [if_pos ((getClip_and hb).2 hs)]
      exact ⟨none, rfl, fun u v h0 huv h1 hu => (hs.not_inBox h0 (by linarith) hu).elim⟩
    rw [if_neg (fun h => hs ((getClip_and hb).1 h))]
    unfold csNeed at hf
    rw [if_neg hs] at hf
    by_cases ha : InBox box a
    · -- cut the second end
      have za := (getClip_zero hb).2 ha
      have hbo : ¬ InBox box b := by
        intro h; apply hz; rw [za, (getClip_zero hb).2 h]; rfl
      have zb : getClip b box ≠ 0 := fun h => hbo ((getClip_zero hb).1 h)
      obtain ⟨τ, hc, t0, t1, hv⟩ := cut_b hb ha hbo
      have hopt : (if getClip a box ≠ 0 then getClip a box else getClip b box) = getClip b box := by simp [za]
      have hne : ¬ getClip b box = getClip a box := by rw [za]; exact zb
      rw [hopt, hc.eq, ok_bind]
      simp only [if_neg hne, if_true]
      by_cases hp : a = lineAt a b τ
      · have := (eqv_zero a (lineAt a b τ)).2 hp
        rw [if_pos this]
        have ht : τ = 0 := by
          refine lineAt_inj hab ?_
          rw [← hp, lineAt_zero]
        exact ⟨none, rfl, ClipSpec.of_point 0 (fun v h0 _ h => by have := hv v h; linarith)⟩
      · have := (not_congr (eqv_zero a (lineAt a b τ))).2 hp
        rw [if_neg this]
        have hpos : 0 < τ := by
          rcases lt_or_eq_of_le t0 with h | h
          · exact h
          · exact (hp (by rw [← h, lineAt_zero])).elim
        obtain ⟨r, h1, h2⟩ := ih a (lineAt a b τ) hp (by
          have hs' : ¬ SameSide box a (lineAt a b τ) := by
            obtain ⟨i1, i2, i3, i4⟩ := ha
            rintro (⟨h, _⟩ | ⟨h, _⟩ | ⟨h, _⟩ | ⟨h, _⟩) <;> linarith
          unfold csNeed
          rw [if_neg hs']
          unfold csWeight at hf ⊢
          rw [if_pos ha, if_neg hbo] at hf
          rw [if_pos ha]
          by_cases ho : OutY box b
          · rw [if_pos ho] at hf
            have hy := hc.y (decide_eq_true ho)
            have : ¬ OutY box (lineAt a b τ) := by rintro (h | h) <;> linarith
            rw [if_neg this]
            split <;> omega
          · rw [if_neg ho] at hf
            have hx := hc.x (decide_eq_false ho)
            have : InBox box (lineAt a b τ) := by
              refine ⟨hx.1, hx.2, ?_⟩
              unfold OutY at ho
              push Not at ho
              obtain ⟨o1, o2⟩ := ho
              obtain ⟨_, _, i3, i4⟩ := ha
              simp only [lineAt]
              constructor
              · nlinarith [mul_nonneg t0 (sub_nonneg.2 o2), mul_nonneg (sub_nonneg.2 t1.le) (sub_nonneg.2 i3)]
              · nlinarith [mul_nonneg t0 (sub_nonneg.2 o1), mul_nonneg (sub_nonneg.2 t1.le) (sub_nonneg.2 i4)]
            rw [if_pos this]
            omega)
        refine ⟨r, ?_, ?_⟩
        · rw [← h1]
        · apply ClipSpec.extend (σ := 0) (ρ := τ) (le_refl _) hpos t1.le
          · intro v h0 _ h; exact ⟨h0, hv v h⟩
          · rw [lineAt_zero]; exact h2
    · -- cut the first end
      have za : getClip a box ≠ 0 := fun h => ha ((getClip_zero hb).1 h)
      obtain ⟨τ, hc, t0, t1, hv⟩ := cut_a hb hs ha
      have hopt : (if getClip a box ≠ 0 then getClip a box else getClip b box) = getClip a box := by simp [za]
      rw [hopt, hc.eq, ok_bind]
      simp only [if_true]
      by_cases hp : lineAt a b τ = b
      · have := (eqv_zero (lineAt a b τ) b).2 hp
        rw [if_pos this]
        have ht : τ = 1 := by
          refine lineAt_inj hab ?_
          rw [hp, lineAt_one]
        exact ⟨none, rfl, ClipSpec.of_point 1 (fun v _ h1 h => by have := hv v h; linarith)⟩
      · have := (not_congr (eqv_zero (lineAt a b τ) b)).2 hp
        rw [if_neg this]
        have hpos : τ < 1 := by
          rcases lt_or_eq_of_le t1 with h | h
          · exact h
          · exact (hp (by rw [h, lineAt_one])).elim
        obtain ⟨r, h1, h2⟩ := ih (lineAt a b τ) b hp (by
          have hwb : SameSide box (lineAt a b τ) b → 1 ≤ csWeight box b := by
            intro h
            have : ¬ InBox box b := by
              rintro ⟨i1, i2, i3, i4⟩
              rcases h with ⟨_, h⟩ | ⟨_, h⟩ | ⟨_, h⟩ | ⟨_, h⟩ <;> linarith
            unfold csWeight
            rw [if_neg this]
            split <;> omega
          have hwa : csWeight box a = if OutY box a then 2 else 1 := by unfold csWeight; rw [if_neg ha]
          have hwa1 : 1 ≤ csWeight box a := by rw [hwa]; split <;> omega
          unfold csNeed
          by_cases hs' : SameSide box (lineAt a b τ) b
          · rw [if_pos hs']
            have := hwb hs'
            omega
          · rw [if_neg hs']
            have : csWeight box (lineAt a b τ) + 1 ≤ csWeight box a := by
              rw [hwa]
              unfold csWeight
              by_cases ho : OutY box a
              · rw [if_pos ho]
                have hy := hc.y (decide_eq_true ho)
                have : ¬ OutY box (lineAt a b τ) := by rintro (h | h) <;> linarith
                rw [if_neg this]
                split <;> omega
              · rw [if_neg ho]
                have hx := hc.x (decide_eq_false ho)
                have : InBox box (lineAt a b τ) := by
                  unfold OutY at ho
                  push Not at ho
                  obtain ⟨o1, o2⟩ := ho
                  refine ⟨hx.1, hx.2, ?_⟩
                  -- otherwise the second end is outside on the same side
                  unfold SameSide at hs'
                  push Not at hs'
                  obtain ⟨q1, q2, _, _⟩ := hs'
                  constructor
                  · by_contra hlt
                    push Not at hlt
                    have hb2 := q2 hlt
                    simp only [lineAt] at hlt
                    nlinarith [mul_nonneg t0.le (sub_nonneg.2 hb2), mul_nonneg (sub_nonneg.2 t1) (sub_nonneg.2 o2)]
                  · by_contra hlt
                    push Not at hlt
                    have hb2 := q1 hlt
                    simp only [lineAt] at hlt
                    nlinarith [mul_nonneg t0.le (sub_nonneg.2 hb2), mul_nonneg (sub_nonneg.2 t1) (sub_nonneg.2 o1)]
                rw [if_pos this]
            omega)
        refine ⟨r, ?_, ?_⟩
        · rw [← h1]
        · apply ClipSpec.extend (σ := τ) (ρ := 1) t0.le hpos (le_refl _)
          · intro v _ h1 h; exact ⟨hv v h, h1⟩
          · rw [lineAt_one]; exact h2

/-- Cohen-Sutherland clips, within four rounds. -/
theorem cohenSutherland_spec {box : Box K} (hb : box.Nonempty) (a b : Pt K) :
    ∃ r, cohenSutherland a b box = .ok r ∧ (a = b → r = none) ∧ (a ≠ b → ClipSpec a b (InBox box) r) := by
  unfold cohenSutherland
  by_cases hab : a = b
  · rw [if_pos ((eqv_zero a b).2 hab)]
    exact ⟨none, rfl, fun _ => rfl, fun h => (h hab).elim⟩
  · rw [if_neg ((not_congr (eqv_zero a b)).2 hab)]
    obtain ⟨r, h1, h2⟩ := csLoop_spec hb 4 a b hab (by
      unfold csNeed csWeight
      split
      · omega
      · split <;> split <;> (try split) <;> (try split) <;> omega)
    exact ⟨r, h1, fun h => (hab h).elim, fun _ => h2⟩

end Celltree
