import Verif.Proofs.ScanAny
import Verif.Proofs.FloatArith
import Verif.Proofs.Edges
import Verif.Proofs.LocatePoints

/-!
# Edges along an axis, in binary64

All computations of signs are exact for these, so the clips end and do not divide by zero.
-/

set_option linter.unusedSectionVars false

namespace Celltree
namespace Fl

/-! ## Small facts -/

theorem rq_ne_zero {q : ℚ} {k : Nat} (hk : k ≤ 1074) (h : 1 / 2 ^ k ≤ |q|) : rq q ≠ 0 := by
  intro e
  have := le_abs_rq hk h
  rw [e, abs_zero] at this
  exact absurd this (not_le.2 (by positivity))

theorem beq_zero_false {x : Fl} (h : x < 0 ∨ 0 < x) : (x == 0) = false := by
  cases x with
  | nan => rcases h with h | h <;> simp [lt_def, Fl.lt] at h
  | pinf => rfl
  | ninf => rfl
  | fin q =>
    rw [zero_def, beq_fin, decide_eq_false_iff_not]
    rw [zero_def, lt_fin, lt_fin] at h
    intro e
    rw [e] at h
    rcases h with h | h <;> exact lt_irrefl _ h

theorem edgeSides_fl (nd : Node Fl) (a b V : Pt Fl) : ∃ s, edgeSides nd a b V = .ok s := by
  unfold edgeSides
  simp only [gt_iff_lt]
  by_cases h1 : 0 < V.get nd.dim
  · simp only [if_pos h1, fdiv, beq_zero_false (.inr h1), Bool.false_eq_true, if_false, ok_bind]
    split <;> split <;> exact ⟨_, rfl⟩
  · simp only [if_neg h1]
    by_cases h2 : V.get nd.dim < 0
    · simp only [if_pos h2, fdiv, beq_zero_false (.inl h2), Bool.false_eq_true, if_false, ok_bind]
      split <;> split <;> exact ⟨_, rfl⟩
    · simp only [if_neg h2]
      exact ⟨_, rfl⟩

/-- A coordinate of moderate size. -/
def Mod (x : ℚ) : Prop := IsRep x ∧ |x| ≤ 2 ^ 200

/-- Two coordinates that are equal or not extremely close. -/
def Apart (x y : ℚ) : Prop := x = y ∨ 1 / 2 ^ 200 ≤ |y - x|

theorem Mod.sub {x y : ℚ} (hx : Mod x) (hy : Mod y) : fin x - fin y = fin (rq (x - y)) ∧ |rq (x - y)| ≤ 2 ^ 201 := by
  have := abs_sub_le_pow hx.2 hy.2
  exact ⟨sub_fin (k := 201) (by norm_num) this, abs_rq_le this⟩

theorem rq_sub_zero_iff {x y : ℚ} (hx : IsRep x) (hy : IsRep y) : rq (x - y) = 0 ↔ x = y := by
  constructor
  · intro h
    rcases lt_trichotomy x y with h1 | h1 | h1
    · have := rq_sub_ne hx hy h1
      rw [show x - y = -(y - x) by ring, rq_neg] at h
      linarith
    · exact h1
    · have := rq_sub_ne hy hx h1
      linarith
  · rintro rfl
    rw [sub_self, rq_zero]

theorem fin_mul_zero (x : ℚ) : fin x * fin 0 = fin 0 := by
  have := mul_fin (a := x) (b := 0) (k := 0) (by norm_num) (by simp)
  rw [this, mul_zero, rq_zero]

theorem fin_zero_mul (x : ℚ) : fin 0 * fin x = fin 0 := by
  have := mul_fin (a := 0) (b := x) (k := 0) (by norm_num) (by simp)
  rw [this, zero_mul, rq_zero]

theorem fdiv_zero_fin {x : ℚ} (h : x ≠ 0) : fdiv (fin 0) (fin x) = .ok (fin 0) := by
  have := fdiv_fin (a := 0) (b := x) (k := 0) h (by norm_num) (by simp)
  rw [this, zero_div, rq_zero]

theorem Mod.add_zero {x : ℚ} (h : Mod x) : fin x + fin 0 = fin x := by
  have := add_fin (a := x) (b := 0) (k := 200) (by norm_num) (by simpa using h.2)
  rw [this, _root_.add_zero, rq_of_isRep h.1]

/-! ## Cohen-Sutherland -/

/-- A box of moderate size. -/
structure ModBox (c : Box ℚ) : Prop where
  xmin : Mod c.xmin
  xmax : Mod c.xmax
  ymin : Mod c.ymin
  ymax : Mod c.ymax
  hx : c.xmin ≤ c.xmax
  hy : c.ymin ≤ c.ymax

/-- The part of the code for one direction. -/
def code (x lo hi : ℚ) (l h : Nat) : Nat := if x < lo then l else if x > hi then h else 0

theorem getClip_fin (c : Box ℚ) (p : Pt ℚ) :
    getClip (fp p) (fbox c) = code p.x c.xmin c.xmax 1 2 ||| code p.y c.ymin c.ymax 4 8 := by
  unfold getClip code
  simp only [fp, fbox, gt_iff_lt, lt_fin]
  split <;> split <;> (try split) <;> simp_all

theorem code_cases (x lo hi : ℚ) (l h : Nat) :
    (code x lo hi l h = l ∧ x < lo) ∨ (code x lo hi l h = h ∧ hi < x) ∨ (code x lo hi l h = 0 ∧ lo ≤ x ∧ x ≤ hi) := by
  unfold code
  by_cases h1 : x < lo
  · left; simp [h1]
  · by_cases h2 : x > hi
    · right; left; simp [h1, h2]
    · right; right; simp [h1, h2]; exact ⟨not_lt.1 h1, not_lt.1 h2⟩

theorem code_in {x lo hi : ℚ} (l h : Nat) (h1 : lo ≤ x) (h2 : x ≤ hi) : code x lo hi l h = 0 := by
  unfold code
  rw [if_neg (not_lt.2 h1), if_neg (not_lt.2 h2)]

variable {c : Box ℚ}

theorem csLoop_zero (box : Box Fl) (fuel : Nat) (a b : Pt Fl) (dx dy : Fl) :
    csLoop box fuel a b 0 0 dx dy = .ok (some (a, b)) := by
  unfold csLoop; simp

theorem csLoop_both (box : Box Fl) (fuel : Nat) (a b : Pt Fl) {k1 k2 : Nat} (h : k1 &&& k2 ≠ 0) (dx dy : Fl) :
    csLoop box (fuel + 1) a b k1 k2 dx dy = .ok none := by
  unfold csLoop
  have : k1 ||| k2 ≠ 0 := by
    intro e
    obtain ⟨h1, h2⟩ := Nat.or_eq_zero_iff.1 e
    rw [h1] at h
    simp at h
  rw [if_neg this]
  exact if_pos h

theorem csLoop_first {box : Box Fl} (fuel : Nat) {a b p : Pt Fl} {k1 k2 : Nat} {dx dy : Fl} (h1 : k1 ≠ 0)
    (h : k1 &&& k2 = 0) (hc : csCut a dx dy box k1 = .ok p) :
    csLoop box (fuel + 1) a b k1 k2 dx dy = if (b.x - p.x == 0 && b.y - p.y == 0) = true then .ok none
      else csLoop box fuel p b (getClip p box) k2 (b.x - p.x) (b.y - p.y) := by
  rw [csLoop]
  have : k1 ||| k2 ≠ 0 := fun e => h1 (Nat.or_eq_zero_iff.1 e).1
  rw [if_neg this]
  simp only [h, h1, hc, ok_bind, ne_eq, not_true_eq_false, not_false_eq_true, if_false, if_true]

theorem csLoop_second {box : Box Fl} (fuel : Nat) {a b p : Pt Fl} {k2 : Nat} {dx dy : Fl} (h2 : k2 ≠ 0)
    (hc : csCut a dx dy box k2 = .ok p) :
    csLoop box (fuel + 1) a b 0 k2 dx dy = if (p.x - a.x == 0 && p.y - a.y == 0) = true then .ok none
      else csLoop box fuel a p 0 (getClip p box) (p.x - a.x) (p.y - a.y) := by
  rw [csLoop]
  have : 0 ||| k2 ≠ 0 := by simpa using h2
  rw [if_neg this]
  simp only [Nat.zero_and, h2, hc, ok_bind, ne_eq, not_true_eq_false, if_false, if_true]

/-- The cut of a horizontal segment. -/
theorem csCut_hor (hc : ModBox c) {p : Pt ℚ} (hx : Mod p.x) (hy : Mod p.y) {d : ℚ} (hd : d ≠ 0) {k : Nat}
    (hk : k = 1 ∨ k = 2) :
    ∃ x, Mod x ∧ c.xmin ≤ x ∧ x ≤ c.xmax ∧ csCut (fp p) (fin d) (fin 0) (fbox c) k = .ok (fp ⟨x, p.y⟩) := by
  rcases hk with rfl | rfl
  · refine ⟨c.xmin, hc.xmin, le_refl _, hc.hx, ?_⟩
    unfold csCut
    simp only [fbox, fp]
    rw [(hc.xmin.sub hx).1, fin_zero_mul, fdiv_zero_fin hd]
    simp [ok_bind, hy.add_zero]
  · refine ⟨c.xmax, hc.xmax, hc.hx, le_refl _, ?_⟩
    unfold csCut
    simp only [fbox, fp]
    rw [(hc.xmax.sub hx).1, fin_zero_mul, fdiv_zero_fin hd]
    simp [ok_bind, hy.add_zero]

/-- The cut of a vertical segment. -/
theorem csCut_ver (hc : ModBox c) {p : Pt ℚ} (hx : Mod p.x) (hy : Mod p.y) {d : ℚ} (hd : d ≠ 0) {k : Nat}
    (hk : k = 4 ∨ k = 8) :
    ∃ y, Mod y ∧ c.ymin ≤ y ∧ y ≤ c.ymax ∧ csCut (fp p) (fin 0) (fin d) (fbox c) k = .ok (fp ⟨p.x, y⟩) := by
  rcases hk with rfl | rfl
  · refine ⟨c.ymin, hc.ymin, le_refl _, hc.hy, ?_⟩
    unfold csCut
    simp only [fbox, fp]
    rw [(hc.ymin.sub hy).1, fin_zero_mul, fdiv_zero_fin hd]
    simp [ok_bind, hx.add_zero]
  · refine ⟨c.ymax, hc.ymax, hc.hy, le_refl _, ?_⟩
    unfold csCut
    simp only [fbox, fp]
    rw [(hc.ymax.sub hy).1, fin_zero_mul, fdiv_zero_fin hd]
    simp [ok_bind, hx.add_zero]

theorem sub_self_fin {x : ℚ} (h : Mod x) : fin x - fin x = fin 0 := by
  rw [(h.sub h).1, sub_self, rq_zero]

theorem beq_fin_zero (x : ℚ) : (fin x == 0) = decide (x = 0) := by rw [zero_def, beq_fin]

/-- A horizontal segment whose first end is in the box. -/
theorem csLoop_hor2 (hc : ModBox c) {y x bx : ℚ} (hy : Mod y) (hx : Mod x) (hbx : Mod bx) (hin : c.ymin ≤ y ∧ y ≤ c.ymax)
    {d : ℚ} (hd : d ≠ 0) (n : Nat) :
    ∃ r, csLoop (fbox c) (n + 1) (fp ⟨x, y⟩) (fp ⟨bx, y⟩) 0 (code bx c.xmin c.xmax 1 2) (fin d) (fin 0) = .ok r := by
  have step : ∀ k, k = 1 ∨ k = 2 → ∃ r, csLoop (fbox c) (n + 1) (fp ⟨x, y⟩) (fp ⟨bx, y⟩) 0 k (fin d) (fin 0) = .ok r := by
    intro k hk
    obtain ⟨x', h1, h2, h3, h4⟩ := csCut_hor hc (p := ⟨x, y⟩) hx hy hd hk
    rw [csLoop_second n (by omega) h4, getClip_fin, code_in 1 2 h2 h3, code_in 4 8 hin.1 hin.2]
    split
    · exact ⟨_, rfl⟩
    · exact ⟨_, csLoop_zero _ _ _ _ _ _⟩
  rcases code_cases bx c.xmin c.xmax 1 2 with ⟨h, _⟩ | ⟨h, _⟩ | ⟨h, _⟩ <;> rw [h]
  · exact step 1 (.inl rfl)
  · exact step 2 (.inr rfl)
  · exact ⟨_, csLoop_zero _ _ _ _ _ _⟩

/-- A vertical segment whose first end is in the box. -/
theorem csLoop_ver2 (hc : ModBox c) {y x b : ℚ} (hy : Mod y) (hx : Mod x) (hb : Mod b) (hin : c.xmin ≤ x ∧ x ≤ c.xmax)
    {d : ℚ} (hd : d ≠ 0) (n : Nat) :
    ∃ r, csLoop (fbox c) (n + 1) (fp ⟨x, y⟩) (fp ⟨x, b⟩) 0 (code b c.ymin c.ymax 4 8) (fin 0) (fin d) = .ok r := by
  have step : ∀ k, k = 4 ∨ k = 8 → ∃ r, csLoop (fbox c) (n + 1) (fp ⟨x, y⟩) (fp ⟨x, b⟩) 0 k (fin 0) (fin d) = .ok r := by
    intro k hk
    obtain ⟨y', h1, h2, h3, h4⟩ := csCut_ver hc (p := ⟨x, y⟩) hx hy hd hk
    rw [csLoop_second n (by omega) h4, getClip_fin, code_in 4 8 h2 h3, code_in 1 2 hin.1 hin.2]
    split
    · exact ⟨_, rfl⟩
    · exact ⟨_, csLoop_zero _ _ _ _ _ _⟩
  rcases code_cases b c.ymin c.ymax 4 8 with ⟨h, _⟩ | ⟨h, _⟩ | ⟨h, _⟩ <;> rw [h]
  · exact step 4 (.inl rfl)
  · exact step 8 (.inr rfl)
  · exact ⟨_, csLoop_zero _ _ _ _ _ _⟩

theorem cohenSutherland_hor (hc : ModBox c) {y x bx : ℚ} (hy : Mod y) (hx : Mod x) (hbx : Mod bx) :
    ∃ r, cohenSutherland (fp ⟨x, y⟩) (fp ⟨bx, y⟩) (fbox c) = .ok r := by
  unfold cohenSutherland
  simp only [fp, (hbx.sub hx).1, sub_self_fin hy]
  by_cases hd : rq (bx - x) = 0
  · rw [hd]
    exact ⟨none, by rw [if_pos (by decide)]⟩
  · rw [beq_fin_zero, decide_eq_false hd, Bool.false_and, if_neg (by simp)]
    rw [show (⟨fin x, fin y⟩ : Pt Fl) = fp ⟨x, y⟩ from rfl, show (⟨fin bx, fin y⟩ : Pt Fl) = fp ⟨bx, y⟩ from rfl,
      getClip_fin, getClip_fin]
    simp only
    have hout : ∀ k, k = 4 ∨ k = 8 → code y c.ymin c.ymax 4 8 = k →
        ∃ r, csLoop (fbox c) 4 (fp ⟨x, y⟩) (fp ⟨bx, y⟩) (code x c.xmin c.xmax 1 2 ||| code y c.ymin c.ymax 4 8)
          (code bx c.xmin c.xmax 1 2 ||| code y c.ymin c.ymax 4 8) (fin (rq (bx - x))) (fin 0) = .ok r := by
      intro k hk h
      refine ⟨_, csLoop_both _ 3 _ _ ?_ _ _⟩
      rw [h]
      rcases code_cases x c.xmin c.xmax 1 2 with ⟨h1, _⟩ | ⟨h1, _⟩ | ⟨h1, _⟩ <;>
        rcases code_cases bx c.xmin c.xmax 1 2 with ⟨h2, _⟩ | ⟨h2, _⟩ | ⟨h2, _⟩ <;>
        rcases hk with rfl | rfl <;> rw [h1, h2] <;> decide
    rcases code_cases y c.ymin c.ymax 4 8 with ⟨h, _⟩ | ⟨h, _⟩ | ⟨h, hin⟩
    · exact hout 4 (.inl rfl) h
    · exact hout 8 (.inr rfl) h
    · rw [h, Nat.or_zero, Nat.or_zero]
      have step : ∀ k, k = 1 ∨ k = 2 → ∃ r, csLoop (fbox c) 4 (fp ⟨x, y⟩) (fp ⟨bx, y⟩) k
          (code bx c.xmin c.xmax 1 2) (fin (rq (bx - x))) (fin 0) = .ok r := by
        intro k hk
        by_cases hb : k &&& code bx c.xmin c.xmax 1 2 = 0
        · obtain ⟨x', h1, h2, h3, h4⟩ := csCut_hor hc (p := ⟨x, y⟩) hx hy hd hk
          rw [csLoop_first 3 (by omega) hb h4, getClip_fin, code_in 1 2 h2 h3, code_in 4 8 hin.1 hin.2]
          simp only [fp, (hbx.sub h1).1, sub_self_fin hy]
          by_cases hd' : rq (bx - x') = 0
          · rw [hd']
            exact ⟨none, by rw [if_pos (by decide)]⟩
          · rw [beq_fin_zero, decide_eq_false hd', Bool.false_and, if_neg (by simp)]
            exact csLoop_hor2 hc hy h1 hbx hin hd' 2
        · exact ⟨_, csLoop_both _ 3 _ _ hb _ _⟩
      rcases code_cases x c.xmin c.xmax 1 2 with ⟨h, _⟩ | ⟨h, _⟩ | ⟨h, _⟩ <;> rw [h]
      · exact step 1 (.inl rfl)
      · exact step 2 (.inr rfl)
      · exact csLoop_hor2 hc hy hx hbx hin hd 3

theorem cohenSutherland_ver (hc : ModBox c) {y x b : ℚ} (hy : Mod y) (hx : Mod x) (hb : Mod b) :
    ∃ r, cohenSutherland (fp ⟨x, y⟩) (fp ⟨x, b⟩) (fbox c) = .ok r := by
  unfold cohenSutherland
  simp only [fp, (hb.sub hy).1, sub_self_fin hx]
  by_cases hd : rq (b - y) = 0
  · rw [hd]
    exact ⟨none, by rw [if_pos (by decide)]⟩
  · rw [beq_fin_zero (rq (b - y)), decide_eq_false hd, Bool.and_false, if_neg (by simp)]
    rw [show (⟨fin x, fin y⟩ : Pt Fl) = fp ⟨x, y⟩ from rfl, show (⟨fin x, fin b⟩ : Pt Fl) = fp ⟨x, b⟩ from rfl,
      getClip_fin, getClip_fin]
    simp only
    have hout : ∀ k, k = 1 ∨ k = 2 → code x c.xmin c.xmax 1 2 = k →
        ∃ r, csLoop (fbox c) 4 (fp ⟨x, y⟩) (fp ⟨x, b⟩) (code x c.xmin c.xmax 1 2 ||| code y c.ymin c.ymax 4 8)
          (code x c.xmin c.xmax 1 2 ||| code b c.ymin c.ymax 4 8) (fin 0) (fin (rq (b - y))) = .ok r := by
      intro k hk h
      refine ⟨_, csLoop_both _ 3 _ _ ?_ _ _⟩
      rw [h]
      rcases code_cases y c.ymin c.ymax 4 8 with ⟨h1, _⟩ | ⟨h1, _⟩ | ⟨h1, _⟩ <;>
        rcases code_cases b c.ymin c.ymax 4 8 with ⟨h2, _⟩ | ⟨h2, _⟩ | ⟨h2, _⟩ <;>
        rcases hk with rfl | rfl <;> rw [h1, h2] <;> decide
    rcases code_cases x c.xmin c.xmax 1 2 with ⟨h, _⟩ | ⟨h, _⟩ | ⟨h, hin⟩
    · exact hout 1 (.inl rfl) h
    · exact hout 2 (.inr rfl) h
    · rw [h, Nat.zero_or, Nat.zero_or]
      have step : ∀ k, k = 4 ∨ k = 8 → ∃ r, csLoop (fbox c) 4 (fp ⟨x, y⟩) (fp ⟨x, b⟩) k
          (code b c.ymin c.ymax 4 8) (fin 0) (fin (rq (b - y))) = .ok r := by
        intro k hk
        by_cases hb' : k &&& code b c.ymin c.ymax 4 8 = 0
        · obtain ⟨y', h1, h2, h3, h4⟩ := csCut_ver hc (p := ⟨x, y⟩) hx hy hd hk
          rw [csLoop_first 3 (by omega) hb' h4, getClip_fin, code_in 4 8 h2 h3, code_in 1 2 hin.1 hin.2]
          simp only [fp, (hb.sub h1).1, sub_self_fin hx]
          by_cases hd' : rq (b - y') = 0
          · rw [hd']
            exact ⟨none, by rw [if_pos (by decide)]⟩
          · rw [beq_fin_zero (rq (b - y')), decide_eq_false hd', Bool.and_false, if_neg (by simp)]
            exact csLoop_ver2 hc h1 hx hb hin hd' 2
        · exact ⟨_, csLoop_both _ 3 _ _ hb' _ _⟩
      rcases code_cases y c.ymin c.ymax 4 8 with ⟨h, _⟩ | ⟨h, _⟩ | ⟨h, _⟩ <;> rw [h]
      · exact step 4 (.inl rfl)
      · exact step 8 (.inr rfl)
      · exact csLoop_ver2 hc hy hx hb hin hd 3

/-! ## Cyrus-Beck -/

theorem cross_def (U V : Pt Fl) : cross U V = U.x * V.y - U.y * V.x := rfl
theorem dot_def (U V : Pt Fl) : dot U V = U.x * V.x + U.y * V.y := rfl

/-- A point with coordinates of moderate size. -/
def ModPt (p : Pt ℚ) : Prop := Mod p.x ∧ Mod p.y

theorem fin_mul_diff {a b : ℚ} (ha : |a| ≤ 2 ^ 201) (hb : |b| ≤ 2 ^ 201) :
    fin a * fin b = fin (rq (a * b)) ∧ |rq (a * b)| ≤ 2 ^ 402 := by
  have := abs_mul_le_pow ha hb
  exact ⟨mul_fin (k := 402) (by norm_num) this, abs_rq_le this⟩

theorem fin_zero_sub {a : ℚ} (h : IsRep a) (h' : |a| ≤ 2 ^ 402) : fin 0 - fin a = fin (-a) := by
  rw [sub_fin (k := 402) (by norm_num) (by simpa using h'), zero_sub, rq_of_isRep h.neg]

theorem fin_sub_zero {a : ℚ} (h : IsRep a) (h' : |a| ≤ 2 ^ 402) : fin a - fin 0 = fin a := by
  rw [sub_fin (k := 402) (by norm_num) (by simpa using h'), sub_zero, rq_of_isRep h]

theorem fin_add_zero {a : ℚ} (h : IsRep a) (h' : |a| ≤ 2 ^ 402) : fin a + fin 0 = fin a := by
  rw [add_fin (k := 402) (by norm_num) (by simpa using h'), add_zero, rq_of_isRep h]

theorem fin_zero_add {a : ℚ} (h : IsRep a) (h' : |a| ≤ 2 ^ 402) : fin 0 + fin a = fin a := by
  rw [add_fin (k := 402) (by norm_num) (by simpa using h'), zero_add, rq_of_isRep h]

theorem toVector_fin {p q : Pt ℚ} (hp : ModPt p) (hq : ModPt q) :
    toVector (fp p) (fp q) = ⟨fin (rq (q.x - p.x)), fin (rq (q.y - p.y))⟩ := by
  unfold toVector
  simp only [fp, (hq.1.sub hp.1).1, (hq.2.sub hp.2).1]

theorem cross_hor {p q v : Pt ℚ} (hp : ModPt p) (hq : ModPt q) (hv : ModPt v) (h : p.y = q.y) :
    cross (toVector (fp p) (fp v)) (toVector (fp p) (fp q)) = fin (-rq (rq (v.y - p.y) * rq (q.x - p.x))) := by
  rw [toVector_fin hp hv, toVector_fin hp hq, cross_def]
  simp only
  obtain ⟨h1, h2⟩ := fin_mul_diff (hv.2.sub hp.2).2 (hq.1.sub hp.1).2
  rw [show q.y - p.y = 0 by rw [h, sub_self], rq_zero, fin_mul_zero, h1, fin_zero_sub (rq_isRep _) h2]

theorem cross_ver {p q v : Pt ℚ} (hp : ModPt p) (hq : ModPt q) (hv : ModPt v) (h : p.x = q.x) :
    cross (toVector (fp p) (fp v)) (toVector (fp p) (fp q)) = fin (rq (rq (v.x - p.x) * rq (q.y - p.y))) := by
  rw [toVector_fin hp hv, toVector_fin hp hq, cross_def]
  simp only
  obtain ⟨h1, h2⟩ := fin_mul_diff (hv.1.sub hp.1).2 (hq.2.sub hp.2).2
  rw [show q.x - p.x = 0 by rw [h, sub_self], rq_zero, fin_mul_zero, h1, fin_sub_zero (rq_isRep _) h2]

theorem den_hor {p q v w : Pt ℚ} (hp : ModPt p) (hq : ModPt q) (hv : ModPt v) (hw : ModPt w) (h : p.y = q.y) :
    sideDen (toVector (fp p) (fp q)) (fp v) (fp w) = fin (rq (-rq (w.y - v.y) * rq (q.x - p.x))) := by
  unfold sideDen
  rw [toVector_fin hp hq, dot_def]
  simp only [fp, (hw.1.sub hv.1).1, (hw.2.sub hv.2).1, neg_fin]
  obtain ⟨h1, h2⟩ := fin_mul_diff (a := -rq (w.y - v.y)) (by rw [abs_neg]; exact (hw.2.sub hv.2).2) (hq.1.sub hp.1).2
  rw [show q.y - p.y = 0 by rw [h, sub_self], rq_zero, fin_mul_zero, h1, fin_add_zero (rq_isRep _) h2]

theorem den_ver {p q v w : Pt ℚ} (hp : ModPt p) (hq : ModPt q) (hv : ModPt v) (hw : ModPt w) (h : p.x = q.x) :
    sideDen (toVector (fp p) (fp q)) (fp v) (fp w) = fin (rq (rq (w.x - v.x) * rq (q.y - p.y))) := by
  unfold sideDen
  rw [toVector_fin hp hq, dot_def]
  simp only [fp, (hw.1.sub hv.1).1, (hw.2.sub hv.2).1, neg_fin]
  obtain ⟨h1, h2⟩ := fin_mul_diff (hw.1.sub hv.1).2 (hq.2.sub hp.2).2
  rw [show q.x - p.x = 0 by rw [h, sub_self], rq_zero, fin_mul_zero, h1, fin_zero_add (rq_isRep _) h2]

theorem rq_mul_ne {x x' y y' : ℚ} (h1 : Apart x x') (h2 : Apart y y') (hx : x ≠ x') (hy : y ≠ y') :
    rq (rq (x' - x) * rq (y' - y)) ≠ 0 := by
  have e1 := le_abs_rq (k := 200) (by norm_num) (h1.resolve_left hx)
  have e2 := le_abs_rq (k := 200) (by norm_num) (h2.resolve_left hy)
  refine rq_ne_zero (k := 400) (by norm_num) ?_
  rw [abs_mul]
  refine le_trans (le_of_eq ?_) (mul_le_mul e1 e2 (by positivity) (abs_nonneg _))
  rw [div_mul_div_comm, one_mul, ← pow_add]

/-- The edge is horizontal or vertical, and not extremely short. -/
def AxisEdge (p q : Pt ℚ) : Prop := (p.y = q.y ∧ Apart p.x q.x) ∨ (p.x = q.x ∧ Apart p.y q.y)

/-- No divisor is zero where the line crosses a side. -/
theorem den_ne_zero {p q v w : Pt ℚ} (hp : ModPt p) (hq : ModPt q) (hv : ModPt v) (hw : ModPt w) (h : AxisEdge p q)
    (hx : Apart v.x w.x) (hy : Apart v.y w.y)
    (hne : decide (cross (toVector (fp p) (fp v)) (toVector (fp p) (fp q)) < 0) ≠
      decide (cross (toVector (fp p) (fp w)) (toVector (fp p) (fp q)) < 0)) :
    (sideDen (toVector (fp p) (fp q)) (fp v) (fp w) == 0) = false := by
  rcases h with ⟨h, ha⟩ | ⟨h, ha⟩
  · rw [den_hor hp hq hv hw h, beq_fin_zero, decide_eq_false_iff_not]
    rw [cross_hor hp hq hv h, cross_hor hp hq hw h] at hne
    have h1 : v.y ≠ w.y := by
      intro e; rw [e] at hne; exact hne rfl
    have h2 : p.x ≠ q.x := by
      intro e
      rw [e, sub_self, rq_zero, mul_zero, mul_zero] at hne
      exact hne rfl
    rw [neg_mul, rq_neg, neg_eq_zero]
    exact rq_mul_ne hy ha h1 h2
  · rw [den_ver hp hq hv hw h, beq_fin_zero, decide_eq_false_iff_not]
    rw [cross_ver hp hq hv h, cross_ver hp hq hw h] at hne
    have h1 : v.x ≠ w.x := by
      intro e; rw [e] at hne; exact hne rfl
    have h2 : p.y ≠ q.y := by
      intro e
      rw [e, sub_self, rq_zero, mul_zero, mul_zero] at hne
      exact hne rfl
    exact rq_mul_ne hx ha h1 h2

/-- The point tests raise no exception. -/
theorem pointTest_fl {poly : List (Pt ℚ)} (hne : poly ≠ []) (hm : ∀ v ∈ poly, ModPt v) (x : Pt Fl) (tol : Fl) :
    ∃ r, pointInPolygonOrOnEdge x (poly.map fp) tol = .ok r := by
  refine pointTest_ok (ys := (poly.map fp).map Pt.y) (by simpa using hne) (subNonzero ?_) ?_
  · intro y hy
    simp only [List.map_map, List.mem_map, Function.comp] at hy
    obtain ⟨v, hv, rfl⟩ := hy
    exact ⟨(hm v hv).2.1, (hm v hv).2.2.trans (pow_le_big (by norm_num))⟩
  · intro v hv
    refine ⟨List.mem_map_of_mem hv, ?_⟩
    obtain ⟨q, _, rfl⟩ := List.mem_map.1 hv
    intro h
    cases h

theorem mem_sides_map {α β : Type} {f : α → β} {l : List α} {s : β × β} (h : s ∈ sides (l.map f)) :
    ∃ v w, (v, w) ∈ sides l ∧ s = (f v, f w) := by
  obtain ⟨j, h1, h2, h3⟩ := mem_sides_iff.1 h
  simp only [List.length_map, List.getElem?_map, Option.map_eq_some_iff] at h1 h2 h3
  obtain ⟨v, h4, h5⟩ := h2
  obtain ⟨w, h6, h7⟩ := h3
  exact ⟨v, w, mem_sides_iff.2 ⟨j, h1, h4, h6⟩, Prod.ext h5.symm h7.symm⟩

theorem cyrusBeck_axis {poly : List (Pt ℚ)} (hne : poly ≠ []) (hm : ∀ v ∈ poly, ModPt v)
    (hs : ∀ s ∈ sides poly, Apart s.1.x s.2.x ∧ Apart s.1.y s.2.y) {p q : Pt ℚ} (hp : ModPt p) (hq : ModPt q)
    (h : AxisEdge p q) (tol : Fl) : ∃ r, cyrusBeck (fp p) (fp q) (poly.map fp) tol = .ok r := by
  refine cyrusBeck_ok (by simpa using hne) (pointTest_fl hne hm _ _) (pointTest_fl hne hm _ _) ?_
  intro s hs' hd
  obtain ⟨v, w, hvw, rfl⟩ := mem_sides_map hs'
  obtain ⟨m1, m2⟩ := mem_sides_mem hvw
  exact den_ne_zero hp hq (hm _ m1) (hm _ m2) h (hs _ hvw).1 (hs _ hvw).2 hd

/-! ## The whole query -/

/-- A mesh with coordinates of moderate size, and sides that are not extremely short in a direction. -/
structure ModMesh (vertices : List (Pt Fl)) (faces : IntArr) (fill : Int) : Prop where
  vert : ∀ v ∈ vertices, ∃ q, v = fp q ∧ ModPt q
  side : ∀ r ∈ faces.rows, ∀ p q, (fp p, fp q) ∈ sides (facePts vertices fill r) → Apart p.x q.x ∧ Apart p.y q.y

variable {env : Env Fl} {vertices : List (Pt Fl)} {faces : IntArr} {fill : Int} {nb cpl : Nat} {t : CellTree Fl} {bt : BT}

theorem facePts_mem {r : List Int} {v : Pt Fl} (h : v ∈ facePts vertices fill r) : v ∈ vertices := by
  unfold facePts at h
  obtain ⟨k, _, hk⟩ := List.mem_filterMap.1 h
  exact List.mem_of_getElem? hk

theorem exists_map_fp {l : List (Pt Fl)} (h : ∀ v ∈ l, ∃ q, v = fp q ∧ ModPt q) :
    ∃ l' : List (Pt ℚ), l = l'.map fp ∧ ∀ v ∈ l', ModPt v := by
  induction l with
  | nil => exact ⟨[], rfl, by simp⟩
  | cons v l ih =>
    obtain ⟨q, rfl, hq⟩ := h v (by simp)
    obtain ⟨l', rfl, hl'⟩ := ih fun v hv => h v (by simp [hv])
    refine ⟨q :: l', rfl, ?_⟩
    intro v hv
    rcases List.mem_cons.1 hv with rfl | hv
    · exact hq
    · exact hl' v hv

theorem Apart.symm {x y : ℚ} (h : Apart x y) : Apart y x := by
  rcases h with rfl | h
  · exact .inl rfl
  · right; rwa [abs_sub_comm]

theorem modBox_of {l : List (Pt Fl)} (h : ∀ v ∈ l, ∃ q, v = fp q ∧ ModPt q) {b : Box Fl} (hb : IsBBox l b) :
    ∃ c, b = fbox c ∧ ModBox c := by
  obtain ⟨p1, m1, e1⟩ := hb.left
  obtain ⟨p2, m2, e2⟩ := hb.right
  obtain ⟨p3, m3, e3⟩ := hb.bottom
  obtain ⟨p4, m4, e4⟩ := hb.top
  have c1 := (hb.contains p1 m1).2.1
  have c3 := (hb.contains p3 m3).2.2.2
  obtain ⟨q1, rfl, n1⟩ := h p1 m1
  obtain ⟨q2, rfl, n2⟩ := h p2 m2
  obtain ⟨q3, rfl, n3⟩ := h p3 m3
  obtain ⟨q4, rfl, n4⟩ := h p4 m4
  simp only [fp] at e1 e2 e3 e4 c1 c3
  rw [← e2, le_fin] at c1
  rw [← e4, le_fin] at c3
  refine ⟨⟨q1.x, q2.x, q3.y, q4.y⟩, ?_, ⟨n1.1, n2.1, n3.2, n4.2, c1, c3⟩⟩
  cases b
  simp only [fbox] at *
  rw [e1, e2, e3, e4]

theorem modBox_tree (h : ∀ b ∈ t.data.bbCoords, ∃ c, b = fbox c ∧ ModBox c) {B : Box Fl} (hB : TreeBox t.data.bbCoords B) :
    ∃ c, B = fbox c ∧ ModBox c := by
  obtain ⟨p1, m1, e1⟩ := hB.left
  obtain ⟨p2, m2, e2⟩ := hB.right
  obtain ⟨p3, m3, e3⟩ := hB.bottom
  obtain ⟨p4, m4, e4⟩ := hB.top
  have c1 := (hB.contains p1 m1).2.1
  have c3 := (hB.contains p3 m3).2.2.2
  obtain ⟨q1, rfl, n1⟩ := h p1 m1
  obtain ⟨q2, rfl, n2⟩ := h p2 m2
  obtain ⟨q3, rfl, n3⟩ := h p3 m3
  obtain ⟨q4, rfl, n4⟩ := h p4 m4
  simp only [fbox] at e1 e2 e3 e4 c1 c3
  rw [e2, le_fin] at c1
  rw [e4, le_fin] at c3
  refine ⟨⟨q1.xmin, q2.xmax, q3.ymin, q4.ymax⟩, ?_, ⟨n1.xmin, n2.xmax, n3.ymin, n4.ymax, n1.hx.trans c1, n3.hy.trans c3⟩⟩
  cases B
  simp only [fbox] at *
  rw [e1, e2, e3, e4]

theorem cohenSutherland_axis {c : Box ℚ} (hc : ModBox c) {p q : Pt ℚ} (hp : ModPt p) (hq : ModPt q) (h : AxisEdge p q) :
    ∃ r, cohenSutherland (fp p) (fp q) (fbox c) = .ok r := by
  obtain ⟨x, y⟩ := p
  obtain ⟨x', y'⟩ := q
  rcases h with ⟨h, _⟩ | ⟨h, _⟩
  · simp only at h
    subst h
    exact cohenSutherland_hor hc hp.2 hp.1 hq.1
  · simp only at h
    subst h
    exact cohenSutherland_ver hc hp.2 hp.1 hq.2

/-- No exception is raised for an edge along an axis. -/
theorem axisEdgeTotal (hc : Constructed env vertices faces fill nb cpl t bt) (hcol : faces.ncol ≤ maxNVertex)
    (hm : ModMesh vertices faces fill) {p q : Pt ℚ} (hp : ModPt p) (hq : ModPt q) (h : AxisEdge p q) :
    EdgeTotal t.data (edgeFaceIntersect env t.data) (fp p) (fp q) := by
  have hpts : ∀ r, ∀ v ∈ facePts vertices fill r, ∃ q, v = fp q ∧ ModPt q := fun r v hv => hm.vert v (facePts_mem hv)
  have hboxes : ∀ b ∈ t.data.bbCoords, ∃ c, b = fbox c ∧ ModBox c := by
    intro b hb
    obtain ⟨i, r, hi, hi'⟩ := mem_of_getElem?_corr hc.boxes.length hb
    obtain ⟨b', c1, c2⟩ := hc.boxes.box i r hi
    rw [hi'] at c1
    cases c1
    exact modBox_of (hpts r) c2
  refine ⟨?_, fun nd _ _ => edgeSides_fl nd _ _ _, ?_⟩
  · obtain ⟨c, e, hB⟩ := modBox_tree hboxes hc.bbox
    rw [e]
    exact cohenSutherland_axis hB hp hq h
  · intro j hj
    have hj' : j < faces.rows.length := by rw [← hc.boxes.length]; exact hj
    obtain ⟨b, hb, hb'⟩ := hc.boxes.box j _ (List.getElem?_eq_getElem hj')
    obtain ⟨c, rfl, hB⟩ := hboxes b (List.mem_of_getElem? hb)
    obtain ⟨h1, h2, h3⟩ := hc.elements.polygon hcol (List.getElem?_eq_getElem hj')
    obtain ⟨s, hs⟩ := cohenSutherland_axis hB hp hq h
    unfold edgeFaceIntersect
    rw [rd_of_some hb, ok_bind, hs, ok_bind]
    cases s with
    | none => exact ⟨_, rfl⟩
    | some _ =>
      obtain ⟨B, e1, _⟩ := hc.elements.row j _ (List.getElem?_eq_getElem hj')
      rw [rd_of_some e1, ok_bind] at h1
      simp only
      rw [rd_of_some e1, ok_bind, hc.vertices_eq, h1, ok_bind]
      have hne : storedPts vertices fill faces.ncol faces.rows[j] ≠ [] := by intro e; rw [e] at h3; simp at h3
      obtain ⟨l, hl, hl'⟩ := exists_map_fp (l := storedPts vertices fill faces.ncol faces.rows[j]) (by
        intro v hv
        refine hpts faces.rows[j] v ?_
        rcases h2 with h2 | h2 <;> rw [h2] at hv
        · exact hv
        · exact List.mem_reverse.1 hv)
      rw [hl] at hne ⊢
      obtain ⟨r, hr⟩ := cyrusBeck_axis (poly := l) (by simpa using hne) hl' (by
        intro s hs
        have hside : (fp s.1, fp s.2) ∈ sides (l.map fp) := by
          obtain ⟨j, a1, a2, a3⟩ := mem_sides_iff.1 hs
          exact mem_sides_iff.2 ⟨j, by simpa using a1, by simp [a2], by simp [a3]⟩
        rw [← hl] at hside
        rcases h2 with h2 | h2 <;> rw [h2] at hside
        · exact hm.side _ (List.getElem_mem hj') _ _ hside
        · have := (sides_reverse _).mem_iff.1 hside
          obtain ⟨⟨u, w⟩, hu, he⟩ := List.mem_map.1 this
          simp only [Prod.swap, Prod.mk.injEq] at he
          obtain ⟨rfl, rfl⟩ := he
          obtain ⟨g1, g2⟩ := hm.side _ (List.getElem_mem hj') _ _ hu
          exact ⟨g1.symm, g2.symm⟩) hp hq h _
      rw [hr, ok_bind]
      exact ⟨_, rfl⟩

end Fl
end Celltree
