import Verif.Spec.FloatCompass
import Verif.Proofs.FloatWhole
import Verif.Proofs.FloatWholeClip
import Verif.Proofs.FloatWholeCross
import Verif.Proofs.FloatWholeTriangles
import Verif.Proofs.FloatPiece
import Verif.Proofs.CohenSutherland
import Verif.Proofs.CyrusBeck
import Verif.Props.FloatWhole
import Verif.Props.CyrusBeck

/-!
# Integer coordinates: pieces of edges in the eight compass directions
-/

namespace Celltree

theorem Compass.lineAt {a b : Pt ℚ} (h : Compass a b) (s t : ℚ) : Compass (lineAt a b s) (lineAt a b t) := by
  have ex : (Celltree.lineAt a b t).x - (Celltree.lineAt a b s).x = (t - s) * (b.x - a.x) := by unfold Celltree.lineAt; ring
  have ey : (Celltree.lineAt a b t).y - (Celltree.lineAt a b s).y = (t - s) * (b.y - a.y) := by unfold Celltree.lineAt; ring
  unfold Compass at *
  rw [ex, ey]
  rcases h with h | h | h
  · left; rw [h, mul_zero]
  · right; left; rw [h, mul_zero]
  · right; right; rw [abs_mul, abs_mul, h]

namespace Fl

/-! ## Clip to a box -/

theorem getClip_fp (a : Pt ℚ) (c : Box ℚ) : getClip (fp a) (fbox c) = getClip a c := by
  unfold getClip fp fbox
  simp only [gt_iff_lt, lt_fin]

theorem whole_zero_eq {a b : Pt ℚ} (ha : WholePt a) (hb : WholePt b) :
    (((fp b).x - (fp a).x == (0 : Fl)) && ((fp b).y - (fp a).y == (0 : Fl))) = ((b.x - a.x == 0) && (b.y - a.y == 0)) := by
  rw [whole_zero_vec ha hb, Bool.eq_iff_iff, eqv_zero, decide_eq_true_eq]

/-- A cut is exact. -/
theorem whole_cut {x x' y y' Y : ℚ} (hx : Whole 25 x) (hx' : Whole 25 x') (hy : Whole 25 y) (hy' : Whole 25 y') (hY : Whole 25 Y)
    (hne : y' - y ≠ 0) (hc : x' - x = 0 ∨ |x' - x| = |y' - y|) :
    fdiv (fin (x' - x) * (fin Y - fin y)) (fin (y' - y)) = .ok (fin ((x' - x) * (Y - y) / (y' - y))) ∧
      fin x + fin ((x' - x) * (Y - y) / (y' - y)) = fin (x + (x' - x) * (Y - y) / (y' - y)) ∧
      Whole 27 (x + (x' - x) * (Y - y) / (y' - y)) := by
  have wx := hx'.sub hx
  have wY := hY.sub hy
  have hq : Whole 26 ((x' - x) * (Y - y) / (y' - y)) := by
    rcases hc with h | h
    · rw [h, zero_mul, zero_div]; exact ⟨0, by simp, by norm_num⟩
    · rcases abs_eq_abs.1 h with h | h
      · rw [h, mul_div_assoc, mul_div_cancel₀ _ hne]; exact wY
      · rw [h, mul_div_assoc, neg_mul, mul_div_cancel₀ _ hne]; exact whole_neg wY
  have hx26 : Whole 26 x := hx.small (hx.abs_le.trans (by norm_num))
  refine ⟨?_, whole_add hx26 hq (by norm_num), hx26.add hq⟩
  rw [whole_sub hY hy (by norm_num), whole_mul wx wY (by norm_num),
    fdiv_fin hne (k := 26) (by norm_num) hq.abs_le, rq_of_isRep (hq.isRep (by norm_num))]

theorem fdiv_eq_ok {x y q : ℚ} (h : fdiv x y = .ok q) : y ≠ 0 ∧ q = x / y := by
  unfold fdiv at h
  split at h
  · cases h
  · rename_i h0
    exact ⟨by simpa using h0, (Except.ok.inj h).symm⟩

theorem lineAt_abs {x y τ B : ℚ} (hx : |x| ≤ B) (hy : |y| ≤ B) (h0 : 0 ≤ τ) (h1 : τ ≤ 1) : |x + τ * (y - x)| ≤ B := by
  rw [abs_le] at *
  constructor <;> nlinarith [mul_nonneg h0 (sub_nonneg.2 hy.2), mul_nonneg (sub_nonneg.2 h1) (sub_nonneg.2 hx.2),
    mul_nonneg h0 (show 0 ≤ y + B by linarith), mul_nonneg (sub_nonneg.2 h1) (show 0 ≤ x + B by linarith)]

/-- The four sides of a box are at integers. -/
structure WholeBox (c : Box ℚ) : Prop where
  xmin : Whole 25 c.xmin
  xmax : Whole 25 c.xmax
  ymin : Whole 25 c.ymin
  ymax : Whole 25 c.ymax

section
variable {c : Box ℚ} (hc : WholeBox c)
include hc

theorem whole_csCut {a b : Pt ℚ} (ha : WholePt a) (hb : WholePt b) (hd : Compass a b) {opt : Nat} {τ : ℚ} (h0 : 0 ≤ τ) (h1 : τ ≤ 1)
    (h : csCut a (b.x - a.x) (b.y - a.y) c opt = .ok (lineAt a b τ)) :
    csCut (fp a) (fin (b.x - a.x)) (fin (b.y - a.y)) (fbox c) opt = .ok (fp (lineAt a b τ)) ∧ WholePt (lineAt a b τ) := by
  have bx : |(lineAt a b τ).x| ≤ 2 ^ 25 := lineAt_abs ha.1.abs_le hb.1.abs_le h0 h1
  have bY : |(lineAt a b τ).y| ≤ 2 ^ 25 := lineAt_abs ha.2.abs_le hb.2.abs_le h0 h1
  generalize lineAt a b τ = p at *
  have vert : ∀ Y : ℚ, Whole 25 Y → (fdiv ((b.x - a.x) * (Y - a.y)) (b.y - a.y) >>= fun q => .ok (⟨a.x + q, Y⟩ : Pt ℚ)) = .ok p →
      (fdiv (fin (b.x - a.x) * (fin Y - fin a.y)) (fin (b.y - a.y)) >>= fun q => .ok (⟨fin a.x + q, fin Y⟩ : Pt Fl)) = .ok (fp p) ∧
        WholePt p := by
    intro Y hY h
    obtain ⟨q, e1, e2⟩ := bind_eq_ok.1 h
    obtain ⟨hne, rfl⟩ := fdiv_eq_ok e1
    have e2 := Except.ok.inj e2
    obtain ⟨g1, g2, g3⟩ := whole_cut ha.1 hb.1 ha.2 hb.2 hY hne (by
      rcases hd with h | h | h
      · exact Or.inl h
      · exact (hne h).elim
      · exact Or.inr h)
    rw [g1, ok_bind, g2, ← e2]
    rw [← e2] at bx
    exact ⟨rfl, g3.small bx, hY⟩
  have hor : ∀ X : ℚ, Whole 25 X → (fdiv ((b.y - a.y) * (X - a.x)) (b.x - a.x) >>= fun q => .ok (⟨X, a.y + q⟩ : Pt ℚ)) = .ok p →
      (fdiv (fin (b.y - a.y) * (fin X - fin a.x)) (fin (b.x - a.x)) >>= fun q => .ok (⟨fin X, fin a.y + q⟩ : Pt Fl)) = .ok (fp p) ∧
        WholePt p := by
    intro X hX h
    obtain ⟨q, e1, e2⟩ := bind_eq_ok.1 h
    obtain ⟨hne, rfl⟩ := fdiv_eq_ok e1
    have e2 := Except.ok.inj e2
    obtain ⟨g1, g2, g3⟩ := whole_cut ha.2 hb.2 ha.1 hb.1 hX hne (by
      rcases hd with h | h | h
      · exact (hne h).elim
      · exact Or.inl h
      · exact Or.inr h.symm)
    rw [g1, ok_bind, g2, ← e2]
    rw [← e2] at bY
    exact ⟨rfl, hX, g3.small bY⟩
  unfold csCut at h ⊢
  by_cases h8 : opt &&& 8 ≠ 0
  · rw [if_pos h8] at h ⊢; exact vert _ hc.ymax h
  · rw [if_neg h8] at h ⊢
    by_cases h4 : opt &&& 4 ≠ 0
    · rw [if_pos h4] at h ⊢; exact vert _ hc.ymin h
    · rw [if_neg h4] at h ⊢
      by_cases h2 : opt &&& 2 ≠ 0
      · rw [if_pos h2] at h ⊢; exact hor _ hc.xmax h
      · rw [if_neg h2] at h ⊢
        by_cases h1 : opt &&& 1 ≠ 0
        · rw [if_pos h1] at h ⊢; exact hor _ hc.xmin h
        · rw [if_neg h1] at h; cases h

/-- The points of a result in binary64. -/
def clipFp (r : Clip ℚ) : Clip Fl := r.map fun p => (fp p.1, fp p.2)

theorem whole_csLoop (hb' : c.Nonempty) (n : Nat) (a b : Pt ℚ) (ha : WholePt a) (hb : WholePt b) (hd : Compass a b) :
    csLoop (fbox c) n (fp a) (fp b) (getClip a c) (getClip b c) (fin (b.x - a.x)) (fin (b.y - a.y)) =
      (csLoop c n a b (getClip a c) (getClip b c) (b.x - a.x) (b.y - a.y)).map clipFp := by
  induction n generalizing a b with
  | zero =>
    unfold csLoop
    split
    · rfl
    · rfl
  | succ n ih =>
    have tail : ∀ a' b' : Pt ℚ, WholePt a' → WholePt b' → Compass a' b' →
        (if ((fp b').x - (fp a').x == (0 : Fl) && (fp b').y - (fp a').y == (0 : Fl)) = true then Except.ok none
          else csLoop (fbox c) n (fp a') (fp b') (getClip a' c) (getClip b' c) ((fp b').x - (fp a').x) ((fp b').y - (fp a').y)) =
        (if (b'.x - a'.x == 0 && b'.y - a'.y == 0) = true then (Except.ok none : M (Clip ℚ))
          else csLoop c n a' b' (getClip a' c) (getClip b' c) (b'.x - a'.x) (b'.y - a'.y)).map clipFp := by
      intro a' b' ha' hb' hd'
      rw [whole_zero_eq ha' hb']
      split
      · rfl
      · have e := ih a' b' ha' hb' hd'
        rw [← e]
        unfold fp
        simp only
        rw [whole_sub hb'.1 ha'.1 (by norm_num), whole_sub hb'.2 ha'.2 (by norm_num)]
    unfold csLoop
    by_cases h0 : getClip a c ||| getClip b c = 0
    · rw [if_pos h0, if_pos h0]; rfl
    · rw [if_neg h0, if_neg h0]
      simp only
      by_cases hs : getClip a c &&& getClip b c ≠ 0
      · rw [if_pos hs, if_pos hs]; rfl
      · rw [if_neg hs, if_neg hs]
        have hns : ¬ SameSide c a b := fun h => hs ((getClip_and hb').2 h)
        by_cases hin : InBox c a
        · have e0 : getClip a c = 0 := (getClip_zero hb').2 hin
          have hbn : ¬ InBox c b := by
            intro h
            rw [e0, (getClip_zero hb').2 h] at h0
            exact h0 rfl
          have hk2 : getClip b c ≠ 0 := fun h => hbn ((getClip_zero hb').1 h)
          obtain ⟨τ, hτ, t0, t1, -⟩ := cut_b hb' hin hbn
          obtain ⟨g1, g2⟩ := whole_csCut hc ha hb hd t0 t1.le hτ.eq
          rw [e0]
          simp only [ne_eq, not_true_eq_false, if_false, hk2, if_true]
          rw [hτ.eq, g1, ok_bind, ok_bind, getClip_fp, ← e0]
          have := tail a (lineAt a b τ) ha g2 (by have := hd.lineAt 0 τ; rwa [lineAt_zero] at this)
          exact this
        · have hk1 : getClip a c ≠ 0 := fun h => hin ((getClip_zero hb').1 h)
          obtain ⟨τ, hτ, t0, t1, -⟩ := cut_a hb' hns hin
          obtain ⟨g1, g2⟩ := whole_csCut hc ha hb hd t0.le t1 hτ.eq
          simp only [ne_eq, hk1, not_false_eq_true, if_true]
          rw [hτ.eq, g1, ok_bind, ok_bind, getClip_fp]
          have := tail (lineAt a b τ) b g2 hb (by have := hd.lineAt τ 1; rwa [lineAt_one] at this)
          exact this

/-- The clip to a box is exact. -/
theorem whole_cohenSutherland (hb' : c.Nonempty) {a b : Pt ℚ} (ha : WholePt a) (hb : WholePt b) (hd : Compass a b) :
    cohenSutherland (fp a) (fp b) (fbox c) = (cohenSutherland a b c).map clipFp := by
  unfold cohenSutherland
  simp only
  rw [whole_zero_eq ha hb, getClip_fp, getClip_fp]
  split
  · rfl
  · rw [← whole_csLoop hc hb' 4 a b ha hb hd]
    unfold fp
    simp only
    rw [whole_sub hb.1 ha.1 (by norm_num), whole_sub hb.2 ha.2 (by norm_num)]

end

/-! ## The scan over the sides -/

theorem rd_fp (l : List (Pt ℚ)) (i : Nat) : rd (l.map fp) i = (rd l i).map fp := by
  unfold rd
  rw [List.getElem?_map]
  cases l[i]? <;> rfl

theorem rdI_fp (l : List (Pt ℚ)) (i : Int) : rdI (l.map fp) i = (rdI l i).map fp := by
  unfold rdI
  rw [List.length_map]
  split
  · rfl
  · exact rd_fp _ _

theorem rd_mem {l : List (Pt ℚ)} {i : Nat} {v : Pt ℚ} (h : rd l i = .ok v) : v ∈ l := by
  unfold rd at h
  split at h
  · rename_i w hw
    cases h
    exact List.mem_of_getElem? hw
  · cases h

theorem rdI_mem {l : List (Pt ℚ)} {i : Int} {v : Pt ℚ} (h : rdI l i = .ok v) : v ∈ l := by
  unfold rdI at h
  split at h
  · cases h
  · exact rd_mem h

theorem aligned_fp (U V : Pt ℚ) : aligned (fp U) (fp V) = aligned U V := by
  unfold aligned fp
  simp only [gt_iff_lt, zero_def, lt_fin, beq_fin]
  rfl

theorem whole_toVector' {p q : Pt ℚ} (h1 : Whole 26 p.x) (h2 : Whole 26 p.y) (h3 : Whole 26 q.x) (h4 : Whole 26 q.y) :
    toVector (fp p) (fp q) = fp (toVector p q) := by
  unfold toVector fp
  simp only
  rw [whole_sub h3 h1 (by norm_num), whole_sub h4 h2 (by norm_num)]

theorem whole_cross_le {n m : Nat} {u v : Pt ℚ} (h1 : Whole n u.x) (h2 : Whole n u.y) (h3 : Whole m v.x) (h4 : Whole m v.y)
    (hnm : n + m ≤ 52) : cross (fp u) (fp v) = fin (cross u v) ∧ Whole (n + m + 1) (cross u v) := by
  unfold cross fp
  simp only
  rw [whole_mul h1 h4 (by omega), whole_mul h2 h3 (by omega), whole_sub (h1.mul h4) (h2.mul h3) (by omega)]
  exact ⟨rfl, (h1.mul h4).sub (h2.mul h3)⟩

theorem whole_dot_le {n m : Nat} {u v : Pt ℚ} (h1 : Whole n u.x) (h2 : Whole n u.y) (h3 : Whole m v.x) (h4 : Whole m v.y)
    (hnm : n + m ≤ 52) : dot (fp u) (fp v) = fin (dot u v) ∧ Whole (n + m + 1) (dot u v) := by
  unfold dot fp
  simp only
  rw [whole_mul h1 h3 (by omega), whole_mul h2 h4 (by omega), whole_add (h1.mul h3) (h2.mul h4) (by omega)]
  exact ⟨rfl, (h1.mul h3).add (h2.mul h4)⟩

theorem whole_cbOverlap {n : Nat} (hn : n ≤ 52) {ta tb t0 t1 : ℚ} (ha : Whole n ta) (hb : Whole n tb) (h0 : Whole n t0) (h1 : Whole n t1) :
    cbOverlap (fin ta) (fin tb) (fin t0) (fin t1) = cbOverlap ta tb t0 t1 := by
  have key : ∀ x y z w : ℚ, Whole n x → Whole n y → Whole n z → Whole n w →
      decide (fmax 0 (fmin (fin y) (fin w) - fmax (fin x) (fin z)) > 0) = decide (fmax 0 (fmin y w - fmax x z) > 0) := by
    intro x y z w hx hy hz hw
    have e1 : Whole n (min y w) := by rcases min_choice y w with h | h <;> rw [h] <;> assumption
    have e2 : Whole n (max x z) := by rcases max_choice x z with h | h <;> rw [h] <;> assumption
    rw [fmin_fin, fmax_fin, whole_sub e1 e2 hn, zero_def, fmax_fin, fmin_eq, fmax_eq, fmax_eq]
    simp only [gt_iff_lt, lt_fin]
  unfold cbOverlap
  simp only [gt_iff_lt, lt_fin] at key ⊢
  split <;> split <;> exact key _ _ _ _ (by assumption) (by assumption) (by assumption) (by assumption)

section
variable {a b : Pt ℚ} (h : Run a b)
include h

theorem Run.vec : toVector (fp a) (fp b) = fp (toVector a b) ∧ Whole 24 (toVector a b).x ∧ Whole 24 (toVector a b).y := by
  obtain ⟨e, w1, w2⟩ := whole_toVector h.first h.second
  exact ⟨e, w1.small h.x, w2.small h.y⟩

theorem whole_collinear {v0 v1 : Pt ℚ} (h0 : WholePt v0) (h1 : WholePt v1) :
    collinearCase (fp a) (fp b) (fp v0) (fp v1) = clipFp (collinearCase a b v0 v1) := by
  obtain ⟨eb, b1, b2⟩ := h.vec
  obtain ⟨e0, p1, p2⟩ := whole_toVector h.first h0
  obtain ⟨e1, q1, q2⟩ := whole_toVector h.first h1
  have eV : toVector (fp (toVector a v0)) (fp (toVector a v1)) = fp (toVector (toVector a v0) (toVector a v1)) :=
    whole_toVector' p1 p2 q1 q2
  have hn1 : Whole 24 (-(toVector a b).y) := whole_neg b2
  have cr : ∀ w : Pt ℚ, Whole 26 w.x → Whole 26 w.y → cross (fp ⟨-(toVector a b).y, (toVector a b).x⟩) (fp w) =
      fin (cross ⟨-(toVector a b).y, (toVector a b).x⟩ w) ∧ Whole 51 (cross ⟨-(toVector a b).y, (toVector a b).x⟩ w) :=
    fun w g1 g2 => whole_cross_le hn1 b1 g1 g2 (by norm_num)
  have crb := cr (toVector a b) (b1.small (b1.abs_le.trans (by norm_num))) (b2.small (b2.abs_le.trans (by norm_num)))
  have cr0 := cr _ p1 p2
  have cr1 := cr _ q1 q2
  have wz : Whole 51 (0 : ℚ) := ⟨0, by simp, by norm_num⟩
  have fin' : ∀ (w0 w1 : Pt ℚ) (t0 t1 : ℚ), Whole 51 t0 → Whole 51 t1 →
      (if (!cbOverlap (0 : Fl) (fin (cross ⟨-(toVector a b).y, (toVector a b).x⟩ (toVector a b))) (fin t0) (fin t1)) = true then none
        else some (if fin t0 < (0 : Fl) then fp w0 else fp a,
          if fin t1 > fin (cross ⟨-(toVector a b).y, (toVector a b).x⟩ (toVector a b)) then fp w1 else fp b)) =
      clipFp (if (!cbOverlap 0 (cross ⟨-(toVector a b).y, (toVector a b).x⟩ (toVector a b)) t0 t1) = true then none
        else some (if t0 < 0 then w0 else a, if t1 > cross ⟨-(toVector a b).y, (toVector a b).x⟩ (toVector a b) then w1 else b)) := by
    intro w0 w1 t0 t1 g0 g1
    rw [zero_def, whole_cbOverlap (n := 51) (by norm_num) wz crb.2 g0 g1]
    split
    · rfl
    · simp only [gt_iff_lt, lt_fin]
      unfold clipFp
      simp only [Option.map_some, Option.some.injEq, Prod.mk.injEq]
      constructor <;> split <;> rfl
  have main : collinearCase (fp a) (fp b) (fp v0) (fp v1) =
      (let al := aligned (fp (toVector a b)) (fp (toVector (toVector a v0) (toVector a v1)))
       let w0 := if al then fp v0 else fp v1
       let w1 := if al then fp v1 else fp v0
       let w0_ := if al then fp (toVector a v0) else fp (toVector a v1)
       let w1_ := if al then fp (toVector a v1) else fp (toVector a v0)
       let n := fp ⟨-(toVector a b).y, (toVector a b).x⟩
       let tb := cross n (fp (toVector a b))
       let t0 := cross n w0_
       let t1 := cross n w1_
       if !cbOverlap 0 tb t0 t1 then none
       else some (if t0 < 0 then w0 else fp a, if t1 > tb then w1 else fp b)) := by
    show (let b_ := toVector (fp a) (fp b)
       let v0_ := toVector (fp a) (fp v0)
       let v1_ := toVector (fp a) (fp v1)
       let al := aligned b_ (toVector v0_ v1_)
       let w0 := if al then fp v0 else fp v1
       let w1 := if al then fp v1 else fp v0
       let w0_ := if al then v0_ else v1_
       let w1_ := if al then v1_ else v0_
       let n : Pt Fl := ⟨-b_.y, b_.x⟩
       let tb := cross n b_
       let t0 := cross n w0_
       let t1 := cross n w1_
       if !cbOverlap 0 tb t0 t1 then none
       else some (if t0 < 0 then w0 else fp a, if t1 > tb then w1 else fp b)) = _
    rw [eb, e0, e1]
    simp only
    rw [eV]
    rfl
  rw [main]
  unfold collinearCase
  have ed : ∀ p q : Pt ℚ, (⟨q.x - p.x, q.y - p.y⟩ : Pt ℚ) = toVector p q := fun p q => rfl
  simp only [ed, aligned_fp]
  rw [crb.1]
  cases aligned (toVector a b) (toVector (toVector a v0) (toVector a v1))
  · simp only [Bool.false_eq_true, if_false]
    rw [cr0.1, cr1.1]
    exact fin' v1 v0 _ _ cr1.2 cr0.2
  · simp only [if_true]
    rw [cr0.1, cr1.1]
    exact fin' v0 v1 _ _ cr0.2 cr1.2

/-- The outcome of a scan in binary64. -/
def scanFp : CbScan ℚ → CbScan Fl
  | .collinear r => .collinear (clipFp r)
  | .found k i0 i1 => .found k i0 i1

theorem whole_cbScan {l : List (Pt ℚ)} (hl : ∀ v ∈ l, WholePt v) (n i k : Nat) (i0 i1 : Int) (ksi : ℚ) :
    cbScan (fp a) (fp b) (fp (toVector a b)) (l.map fp) n i k i0 i1 (fin ksi) =
      (cbScan a b (toVector a b) l n i k i0 i1 ksi).map scanFp := by
  induction n generalizing i k i0 i1 ksi with
  | zero => rfl
  | succ n ih =>
    unfold cbScan
    by_cases hk : k < 2
    · rw [if_pos hk, if_pos hk, rd_fp, List.length_map, rd_fp]
      cases e0 : rd l i with
      | error => rfl
      | ok v0 =>
        cases e1 : rd l ((i + 1) % l.length) with
        | error => rfl
        | ok v1 =>
          obtain ⟨-, b1, b2⟩ := h.vec
          obtain ⟨e, w1, w2⟩ := whole_toVector h.first (hl v1 (rd_mem e1))
          have hc := (whole_cross_le w1 w2 b1 b2 (by norm_num)).1
          simp only [Except.map, ok_bind]
          rw [e, hc]
          simp only [zero_def, lt_fin, beq_fin]
          rw [ih, ih, ih, whole_collinear h (hl v0 (rd_mem e0)) (hl v1 (rd_mem e1))]
          have e3 : (ksi == 0 && cross (toVector a v1) (toVector a b) == 0) =
            (decide (ksi = 0) && decide (cross (toVector a v1) (toVector a b) = 0)) := rfl
          rw [e3]
          split
          · split <;> rfl
          · split
            · rfl
            · rfl
    · rw [if_neg hk, if_neg hk]; rfl

end

/-! ## The line parameters -/

/-- The line parameter of a side of a face, for a segment of `L` steps. -/
def HitFrac (L C : Int) (t : ℚ) : Prop := ∃ N c : Int, c ≠ 0 ∧ |c| ≤ C ∧ t = N / (L * c)

section
variable {L C : Int} (hL : 0 < L) (hL' : 1 ≤ C ∧ L * C ^ 2 ≤ 2 ^ 50)
include hL hL'

omit hL in
theorem hitFrac_zero : HitFrac L C 0 := ⟨0, 1, by norm_num, by simpa using hL'.1, by simp⟩

theorem hitFrac_one : HitFrac L C 1 := by
  refine ⟨L, 1, by norm_num, by simpa using hL'.1, ?_⟩
  have : (L : ℚ) ≠ 0 := by exact_mod_cast hL.ne'
  rw [Int.cast_one, mul_one, div_self this]

/-- Different parameters are well apart. -/
theorem hit_gap {s t : ℚ} (hs : HitFrac L C s) (ht : HitFrac L C t) (h : s < t) : 1 / 2 ^ 50 ≤ t - s := by
  obtain ⟨N, c, c0, c1, rfl⟩ := hs
  obtain ⟨M, d, d0, d1, rfl⟩ := ht
  have hLq : (L : ℚ) ≠ 0 := by exact_mod_cast hL.ne'
  have hcq : (c : ℚ) ≠ 0 := by exact_mod_cast c0
  have hdq : (d : ℚ) ≠ 0 := by exact_mod_cast d0
  have e : (M : ℚ) / (L * d) - N / (L * c) = ((M * c - N * d : Int) : ℚ) / ((L * (c * d) : Int) : ℚ) := by
    push_cast; field_simp
  have hpos : (0 : ℚ) < M / (L * d) - N / (L * c) := by linarith
  rw [e] at hpos ⊢
  have hn : M * c - N * d ≠ 0 := by
    intro h0; rw [h0] at hpos; simp at hpos
  have hk : |L * (c * d)| ≤ 2 ^ 50 := by
    rw [abs_mul, abs_mul, abs_of_pos hL]
    have : |c| * |d| ≤ C * C := mul_le_mul c1 d1 (abs_nonneg _) (by linarith [hL'.1])
    calc L * (|c| * |d|) ≤ L * (C * C) := mul_le_mul_of_nonneg_left this hL.le
      _ = L * C ^ 2 := by ring
      _ ≤ 2 ^ 50 := hL'.2
  have hk0 : L * (c * d) ≠ 0 := mul_ne_zero hL.ne' (mul_ne_zero c0 d0)
  rw [← abs_of_pos hpos, abs_div]
  have n1 : (1 : ℚ) ≤ |((M * c - N * d : Int) : ℚ)| := by exact_mod_cast Int.one_le_abs hn
  have k1 : |((L * (c * d) : Int) : ℚ)| ≤ 2 ^ 50 := by exact_mod_cast hk
  have k0 : 0 < |((L * (c * d) : Int) : ℚ)| := abs_pos.2 (by exact_mod_cast hk0)
  exact div_le_div₀ (by positivity) n1 k0 k1

omit hL hL' in
theorem rq_err_le {x B : ℚ} (h : |x| ≤ B) (hB : 1 ≤ B) : |rq x - x| ≤ u * B := by
  rcases rq_err x with e | e
  · exact e.trans (mul_le_mul_of_nonneg_left h u_pos.le)
  · refine e.trans (le_trans ?_ (le_mul_of_one_le_right u_pos.le hB))
    unfold eta u
    exact inv_le_inv_pow (by norm_num)

/-- The order of different parameters survives rounding, unless both are far outside of the segment. -/
theorem hit_lt {s t : ℚ} (hs : HitFrac L C s) (ht : HitFrac L C t) (h : s < t) (s1 : s ≤ 1) (t1 : -1 ≤ t) : rq s < rq t := by
  have gap := hit_gap hL hL' hs ht h
  have r1 : rq s ≤ 1 := rq_le isRep_one s1
  have r2 : -1 ≤ rq t := by
    have := rq_mono t1
    rwa [rq_neg, rq_one] at this
  have i2 : IsRep 2 := by have := isRep_two_pow 1; rwa [pow_one] at this
  rcases lt_or_ge s (-2) with h2 | h2
  · have := rq_mono h2.le
    rw [rq_neg, rq_of_isRep i2] at this
    linarith
  · rcases lt_or_ge 2 t with h3 | h3
    · have := le_rq i2 h3.le
      linarith
    · have a1 := abs_le.1 (rq_err_le (B := 2) (x := s) (abs_le.2 ⟨by linarith, by linarith⟩) (by norm_num))
      have a2 := abs_le.1 (rq_err_le (B := 2) (x := t) (abs_le.2 ⟨by linarith, by linarith⟩) (by norm_num))
      have : 4 * u < 1 / 2 ^ 50 := by unfold u; norm_num
      linarith [a1.1, a1.2, a2.1, a2.2]

section
variable {t : ℚ} (ht : HitFrac L C t)
include ht

theorem hit_neg : rq t < 0 ↔ t < 0 := by
  constructor
  · intro h
    by_contra h'
    have := rq_nonneg (not_lt.1 h')
    linarith
  · intro h
    have := hit_lt hL hL' ht (hitFrac_zero hL') h (by linarith) (by norm_num)
    rwa [rq_zero] at this

theorem hit_pos : 0 < rq t ↔ 0 < t := by
  constructor
  · intro h
    by_contra h'
    have := rq_mono (not_lt.1 h')
    rw [rq_zero] at this
    linarith
  · intro h
    have := hit_lt hL hL' (hitFrac_zero hL') ht h (by norm_num) (by linarith)
    rwa [rq_zero] at this

theorem hit_lt_one : rq t < 1 ↔ t < 1 := by
  constructor
  · intro h
    by_contra h'
    have := rq_mono (not_lt.1 h')
    rw [rq_one] at this
    linarith
  · intro h
    have := hit_lt hL hL' ht (hitFrac_one hL hL') h h.le (by norm_num)
    rwa [rq_one] at this

theorem hit_one_lt : 1 < rq t ↔ 1 < t := by
  constructor
  · intro h
    by_contra h'
    have := rq_mono (not_lt.1 h')
    rw [rq_one] at this
    linarith
  · intro h
    have := hit_lt hL hL' (hitFrac_one hL hL') ht h (by norm_num) (by linarith)
    rwa [rq_one] at this

theorem hit_zero : rq t = 0 ↔ t = 0 := by
  have h1 := hit_neg hL hL' ht
  have h2 := hit_pos hL hL' ht
  constructor
  · intro h
    rw [h] at h1 h2
    exact le_antisymm (not_lt.1 fun h => (lt_irrefl _ (h2.2 h))) (not_lt.1 fun h => (lt_irrefl _ (h1.2 h)))
  · rintro rfl; exact rq_zero

theorem hit_one : rq t = 1 ↔ t = 1 := by
  have h1 := hit_lt_one hL hL' ht
  have h2 := hit_one_lt hL hL' ht
  constructor
  · intro h
    rw [h] at h1 h2
    exact le_antisymm (not_lt.1 fun h => (lt_irrefl _ (h2.2 h))) (not_lt.1 fun h => (lt_irrefl _ (h1.2 h)))
  · rintro rfl; exact rq_one

end

/-- Parameters whose order is lost are both outside of the segment on the same side. -/
theorem hit_merge {s t : ℚ} (hs : HitFrac L C s) (ht : HitFrac L C t) (h : s < t) (e : rq t ≤ rq s) : (1 < s ∧ 1 < t) ∨ (s < 0 ∧ t < 0) := by
  by_contra hn
  push Not at hn
  have : ¬ (s ≤ 1 ∧ -1 ≤ t) := fun g => absurd (hit_lt hL hL' hs ht h g.1 g.2) (not_lt.2 e)
  by_cases h1 : s ≤ 1
  · have : t < -1 := not_le.1 fun g => this ⟨h1, g⟩
    have := hn.2 (by linarith)
    linarith
  · have := hn.1 (not_le.1 h1)
    linarith

end

/-! ## The ends of the piece -/

theorem whole_point {x s t : ℚ} (hx : Whole 25 x) (hs : Whole 24 s) (h0 : 0 ≤ t) (h1 : t ≤ 1) :
    ∃ q, fin x + fin (rq t) * fin s = fin q ∧ (t = 0 ∨ t = 1 → q = x + t * s) ∧ |q - (x + t * s)| ≤ 1 / 2 ^ 26 := by
  have t0 : 0 ≤ rq t := rq_nonneg h0
  have t1 : rq t ≤ 1 := rq_le isRep_one h1
  have bs := hs.abs_le
  have bx := hx.abs_le
  have m1 : |rq t * s| ≤ 2 ^ 24 := by
    rw [abs_mul, abs_of_nonneg t0]
    calc rq t * |s| ≤ 1 * 2 ^ 24 := mul_le_mul t1 bs (abs_nonneg _) (by norm_num)
      _ = 2 ^ 24 := by norm_num
  have m2 : |rq (rq t * s)| ≤ 2 ^ 24 := by
    rw [abs_le] at m1 ⊢
    have i := isRep_two_pow 24
    exact ⟨by have := rq_mono m1.1; rwa [rq_neg, rq_of_isRep i] at this, rq_le i m1.2⟩
  have m3 : |x + rq (rq t * s)| ≤ 2 ^ 26 := by
    refine (abs_add_le _ _).trans ?_
    have : (2 : ℚ) ^ 25 + 2 ^ 24 ≤ 2 ^ 26 := by norm_num
    linarith
  refine ⟨rq (x + rq (rq t * s)), ?_, ?_, ?_⟩
  · rw [mul_fin (k := 24) (by norm_num) m1, add_fin (k := 26) (by norm_num) m3]
  · rintro (rfl | rfl)
    · rw [rq_zero, zero_mul, rq_zero, add_zero, whole_rq hx (by norm_num)]
    · rw [rq_one, one_mul, whole_rq hs (by norm_num)]
      exact whole_rq (hx.add (hs.small (bs.trans (by norm_num)))) (by norm_num)
  · have a1 := abs_le.1 (rq_err_le (x := t) (B := 1) (abs_le.2 ⟨by linarith, h1⟩) le_rfl)
    have a2 := abs_le.1 (rq_err_le m1 (by norm_num))
    have a3 := abs_le.1 (rq_err_le m3 (by norm_num))
    have a4 : |(rq t - t) * s| ≤ u * 2 ^ 24 := by
      rw [abs_mul]
      exact mul_le_mul (abs_le.2 ⟨by linarith [a1.1], by linarith [a1.2]⟩) bs (abs_nonneg _) u_pos.le
    have a5 := abs_le.1 a4
    have e : rq (x + rq (rq t * s)) - (x + t * s) = (rq (x + rq (rq t * s)) - (x + rq (rq t * s))) + (rq (rq t * s) - rq t * s) +
        (rq t - t) * s := by ring
    have hu : u * 2 ^ 26 + u * 2 ^ 24 + u * 2 ^ 24 ≤ 1 / 2 ^ 26 := by unfold u; norm_num
    rw [e, abs_le]
    constructor <;> linarith [a2.1, a2.2, a3.1, a3.2, a5.1, a5.2]

theorem whole_toPoint {a b : Pt ℚ} (h : Run a b) (hab : a ≠ b) {t : ℚ} (h0 : 0 ≤ t) (h1 : t ≤ 1) :
    EndAcc a b (toPoint t a (toVector a b)) (toPoint (fin (rq t)) (fp a) (fp (toVector a b))) := by
  obtain ⟨-, w1, w2⟩ := h.vec
  obtain ⟨p, e1, e2, e3⟩ := whole_point h.first.1 w1 h0 h1
  obtain ⟨q, f1, f2, f3⟩ := whole_point h.first.2 w2 h0 h1
  refine ⟨⟨p, q⟩, ?_, ?_, e3, f3⟩
  · show (⟨_, _⟩ : Pt Fl) = ⟨_, _⟩
    rw [← e1, ← f1]
    rfl
  · intro hp
    have ht : t = 0 ∨ t = 1 := by
      rw [toPoint_eq] at hp
      rcases hp with hp | hp
      · left; exact lineAt_inj hab (hp.trans (lineAt_zero a b).symm)
      · right; exact lineAt_inj hab (hp.trans (lineAt_one a b).symm)
    exact Pt.ext' (e2 ht) (f2 ht)

theorem endAcc_self {a b p : Pt ℚ} : EndAcc a b p (fp p) := ⟨p, rfl, fun _ => rfl, by simp, by simp⟩

/-- The result in binary64 agrees with the exact result. -/
def ClipAcc (a b : Pt ℚ) : Clip ℚ → Clip Fl → Prop
  | none, none => True
  | some p, some q => EndAcc a b p.1 q.1 ∧ EndAcc a b p.2 q.2
  | _, _ => False

theorem clipAcc_self {a b : Pt ℚ} (r : Clip ℚ) : ClipAcc a b r (clipFp r) := by
  cases r with
  | none => trivial
  | some p => exact ⟨endAcc_self, endAcc_self⟩

/-- The last step of `cbFinish`. -/
def finClip {F : Type} [Add F] [Mul F] [Zero F] [One F] [LT F] [LE F] [DecidableLT F] [DecidableLE F] (a b s : Pt F) (t0 t1 : F) : Clip F :=
  let (t0, t1) := if t1 < t0 then (t1, t0) else (t0, t1)
  let valid0 := decide (t0 ≥ 0) && decide (t0 < 1)
  let valid1 := decide (t1 > 0) && decide (t1 ≤ 1)
  if valid0 && valid1 then some (toPoint t0 a s, toPoint t1 a s)
  else if valid0 then some (toPoint t0 a s, b)
  else if valid1 then some (a, toPoint t1 a s)
  else none

theorem cbFinish_eq {F : Type} [Add F] [Sub F] [Mul F] [Div F] [Neg F] [Zero F] [One F] [LT F] [LE F] [BEq F] [DecidableLT F]
    [DecidableLE F] (a b s : Pt F) (aIn bIn : Bool) (t0 t1 : F) :
    cbFinish a b s aIn bIn t0 t1 = if t0 == t1 then
      if aIn && !(t1 == 0) then finClip a b s 0 t1 else if bIn && !(t0 == 1) then finClip a b s t0 1 else none
      else finClip a b s t0 t1 := rfl

section
variable {L C : Int} (hL : 0 < L) (hL' : 1 ≤ C ∧ L * C ^ 2 ≤ 2 ^ 50) {a b : Pt ℚ} (h : Run a b) (hab : a ≠ b)
include hL hL' h hab

/-- The parameters in order. -/
theorem whole_finClip_sorted {s t : ℚ} (hs : HitFrac L C s) (ht : HitFrac L C t) (hst : s ≤ t) :
    ClipAcc a b (finClip a b (toVector a b) s t) (finClip (fp a) (fp b) (fp (toVector a b)) (fin (rq s)) (fin (rq t))) := by
  unfold finClip
  simp only [lt_fin, not_lt.2 hst, not_lt.2 (rq_mono hst), if_false, ge_iff_le, gt_iff_lt]
  have e1 : decide ((0 : Fl) ≤ fin (rq s)) = decide (0 ≤ s) := decide_eq_decide.2 (by
    rw [zero_def, le_fin, ← not_lt, ← not_lt, hit_neg hL hL' hs])
  have e2 : decide (fin (rq s) < (1 : Fl)) = decide (s < 1) := decide_eq_decide.2 (by
    rw [one_def, lt_fin, hit_lt_one hL hL' hs])
  have e3 : decide ((0 : Fl) < fin (rq t)) = decide (0 < t) := decide_eq_decide.2 (by
    rw [zero_def, lt_fin, hit_pos hL hL' ht])
  have e4 : decide (fin (rq t) ≤ (1 : Fl)) = decide (t ≤ 1) := decide_eq_decide.2 (by
    rw [one_def, le_fin, ← not_lt, ← not_lt, hit_one_lt hL hL' ht])
  rw [e1, e2, e3, e4]
  by_cases v0 : (decide (0 ≤ s) && decide (s < 1)) = true
  · have g0 : 0 ≤ s ∧ s < 1 := by simpa using v0
    by_cases v1 : (decide (0 < t) && decide (t ≤ 1)) = true
    · have g1 : 0 < t ∧ t ≤ 1 := by simpa using v1
      simp only [v0, v1, Bool.and_self, if_true]
      exact ⟨whole_toPoint h hab g0.1 g0.2.le, whole_toPoint h hab g1.1.le g1.2⟩
    · simp only [v0, v1, Bool.true_and, if_false, if_true]
      exact ⟨whole_toPoint h hab g0.1 g0.2.le, endAcc_self⟩
  · by_cases v1 : (decide (0 < t) && decide (t ≤ 1)) = true
    · have g1 : 0 < t ∧ t ≤ 1 := by simpa using v1
      rw [Bool.not_eq_true] at v0
      simp only [v0, v1, Bool.false_and, if_true, Bool.false_eq_true, if_false]
      exact ⟨endAcc_self, whole_toPoint h hab g1.1.le g1.2⟩
    · rw [Bool.not_eq_true] at v0 v1
      simp only [v0, v1, Bool.false_and, Bool.false_eq_true, if_false]
      trivial

omit hL hL' h hab in
theorem finClip_comm {s t : ℚ} : finClip a b (toVector a b) s t = finClip a b (toVector a b) t s := by
  unfold finClip
  rcases lt_trichotomy s t with h | h | h
  · simp only [not_lt.2 h.le, h, if_false, if_true]
  · subst h; rfl
  · simp only [not_lt.2 h.le, h, if_false, if_true]

omit hL hL' h hab in
theorem finClip_comm_fl {s t : ℚ} : finClip (fp a) (fp b) (fp (toVector a b)) (fin s) (fin t) =
    finClip (fp a) (fp b) (fp (toVector a b)) (fin t) (fin s) := by
  unfold finClip
  rcases lt_trichotomy s t with h | h | h
  · simp only [lt_fin, not_lt.2 h.le, h, if_false, if_true]
  · subst h; rfl
  · simp only [lt_fin, not_lt.2 h.le, h, if_false, if_true]

theorem whole_finClip {s t : ℚ} (hs : HitFrac L C s) (ht : HitFrac L C t) :
    ClipAcc a b (finClip a b (toVector a b) s t) (finClip (fp a) (fp b) (fp (toVector a b)) (fin (rq s)) (fin (rq t))) := by
  rcases le_total s t with hst | hst
  · exact whole_finClip_sorted hL hL' h hab hs ht hst
  · rw [finClip_comm, finClip_comm_fl]
    exact whole_finClip_sorted hL hL' h hab ht hs hst

theorem whole_cbFinish {s t : ℚ} (hs : HitFrac L C s) (ht : HitFrac L C t) {aIn bIn : Bool}
    (ha : aIn = true → ¬ (0 < s ∧ 0 < t) ∧ ¬ (s < 0 ∧ t < 0)) (hb : bIn = true → ¬ (1 < s ∧ 1 < t) ∧ ¬ (s < 1 ∧ t < 1)) :
    ClipAcc a b (cbFinish a b (toVector a b) aIn bIn s t)
      (cbFinish (fp a) (fp b) (fp (toVector a b)) aIn bIn (fin (rq s)) (fin (rq t))) := by
  rw [cbFinish_eq, cbFinish_eq]
  by_cases e : s = t
  · subst e
    have e1 : (fin (rq s) == (0 : Fl)) = (s == 0) := by
      rw [zero_def, beq_fin]; exact decide_eq_decide.2 (hit_zero hL hL' hs)
    have e2 : (fin (rq s) == (1 : Fl)) = (s == 1) := by
      rw [one_def, beq_fin]; exact decide_eq_decide.2 (hit_one hL hL' hs)
    rw [e1, e2, beq_fin, decide_eq_true rfl, beq_self_eq_true]
    simp only [if_true]
    split
    · have := whole_finClip hL hL' h hab (hitFrac_zero hL') hs
      rwa [rq_zero] at this
    · split
      · have := whole_finClip hL hL' h hab hs (hitFrac_one hL hL')
        rwa [rq_one] at this
      · trivial
  · have e' : (s == t) = false := by simpa using e
    rw [e', beq_fin]
    simp only [Bool.false_eq_true, if_false]
    by_cases er : rq s = rq t
    · -- both on the same side, beyond the segment
      have out : (1 < s ∧ 1 < t) ∨ (s < 0 ∧ t < 0) := by
        rcases lt_or_gt_of_ne e with g | g
        · exact hit_merge hL hL' hs ht g er.ge
        · exact (hit_merge hL hL' ht hs g er.le).imp And.symm And.symm
      have na : aIn = false := by
        rw [Bool.eq_false_iff]
        intro g
        rcases out with o | o
        · exact (ha g).1 ⟨by linarith [o.1], by linarith [o.2]⟩
        · exact (ha g).2 o
      have nb : bIn = false := by
        rw [Bool.eq_false_iff]
        intro g
        rcases out with o | o
        · exact (hb g).1 o
        · exact (hb g).2 ⟨by linarith [o.1], by linarith [o.2]⟩
      rw [na, nb, decide_eq_true er]
      simp only [Bool.false_and, Bool.false_eq_true, if_false, if_true]
      have hn : finClip a b (toVector a b) s t = none := by
        have key : ∀ p q : ℚ, p ≤ q → ((1 < p ∧ 1 < q) ∨ (p < 0 ∧ q < 0)) → finClip a b (toVector a b) p q = none := by
          intro p q hpq o
          unfold finClip
          simp only [not_lt.2 hpq, if_false]
          have v0 : (decide (p ≥ 0) && decide (p < 1)) = false := by
            rw [Bool.eq_false_iff]
            intro g
            have g : 0 ≤ p ∧ p < 1 := by simpa using g
            rcases o with o | o <;> linarith [o.1, g.1, g.2]
          have v1 : (decide (q > 0) && decide (q ≤ 1)) = false := by
            rw [Bool.eq_false_iff]
            intro g
            have g : 0 < q ∧ q ≤ 1 := by simpa using g
            rcases o with o | o <;> linarith [o.2, g.1, g.2]
          simp only [v0, v1, Bool.false_and, Bool.false_eq_true, if_false]
        rcases le_total s t with g | g
        · exact key s t g out
        · rw [finClip_comm]; exact key t s g (out.imp And.symm And.symm)
      rw [hn]
      trivial
    · rw [decide_eq_false er]
      exact whole_finClip hL hL' h hab hs ht

end

/-! ## The clip to a face -/

section
variable {a b : Pt ℚ} (h : Run a b)
include h

theorem whole_computeIntersection {v w : Pt ℚ} (hv : WholePt v) (hw : WholePt w) (hx : |w.x - v.x| ≤ 2 ^ 12) (hy : |w.y - v.y| ≤ 2 ^ 12) :
    computeIntersection (fp a) (fp (toVector a b)) (fp v) (fp w) =
      (computeIntersection a (toVector a b) v w).map fun x => (x.1, fin (rq x.2)) := by
  obtain ⟨-, b1, b2⟩ := h.vec
  obtain ⟨e, w1, w2⟩ := whole_toVector h.first hv
  have n1 : Whole 12 (-(w.y - v.y)) := whole_neg ((hw.2.sub hv.2).small hy)
  have n2 : Whole 12 (w.x - v.x) := (hw.1.sub hv.1).small hx
  have en : (⟨-((fp w).y - (fp v).y), (fp w).x - (fp v).x⟩ : Pt Fl) = fp ⟨-(w.y - v.y), w.x - v.x⟩ := by
    unfold fp
    simp only
    rw [whole_sub hw.2 hv.2 (by norm_num), whole_sub hw.1 hv.1 (by norm_num), neg_fin]
  obtain ⟨d1, d2⟩ := whole_dot_le (u := ⟨-(w.y - v.y), w.x - v.x⟩) (v := toVector a v) n1 n2 w1 w2 (by norm_num)
  obtain ⟨d3, d4⟩ := whole_dot_le (u := ⟨-(w.y - v.y), w.x - v.x⟩) (v := toVector a b) n1 n2 b1 b2 (by norm_num)
  unfold computeIntersection
  simp only
  rw [e, en, d1, d3]
  generalize dot (⟨-(w.y - v.y), w.x - v.x⟩ : Pt ℚ) (toVector a v) = N at *
  generalize dot (⟨-(w.y - v.y), w.x - v.x⟩ : Pt ℚ) (toVector a b) = k at *
  by_cases hk : k = 0
  · subst hk
    unfold fdiv
    rw [zero_def, beq_fin]
    rfl
  · have k1 : 1 ≤ |k| := by
      have := d4.one_le hk
      rw [← abs_mul_abs_self] at this
      nlinarith [abs_nonneg k]
    have hq : |N / k| ≤ 2 ^ 39 := by
      rw [abs_div]
      exact (div_le_self (abs_nonneg _) k1).trans d2.abs_le
    rw [fdiv_fin hk (k := 39) (by norm_num) hq, fdiv_eq hk]
    simp only [ok_bind, Except.map, zero_def, gt_iff_lt, lt_fin]

theorem whole_cbIntersections {l : List (Pt ℚ)} (hl : ∀ v ∈ l, WholePt v)
    (hs : ∀ v ∈ l, ∀ w ∈ l, |w.x - v.x| ≤ 2 ^ 12 ∧ |w.y - v.y| ≤ 2 ^ 12) (i0 i1 : Int) :
    cbIntersections (fp a) (fp (toVector a b)) (l.map fp) i0 i1 =
      (cbIntersections a (toVector a b) l i0 i1).map fun x => (fin (rq x.1), fin (rq x.2)) := by
  unfold cbIntersections
  simp only [List.length_map, rdI_fp]
  cases e0 : rdI l i0 with
  | error => rfl
  | ok v0 =>
    cases e1 : rdI l ((i0 + 1) % (l.length : Int)) with
    | error => rfl
    | ok v01 =>
      cases e2 : rdI l i1 with
      | error => rfl
      | ok v1 =>
        cases e3 : rdI l ((i1 + 1) % (l.length : Int)) with
        | error => rfl
        | ok v11 =>
          simp only [Except.map, ok_bind]
          have m0 := rdI_mem e0
          have m01 := rdI_mem e1
          have m1 := rdI_mem e2
          have m11 := rdI_mem e3
          rw [whole_computeIntersection h (hl _ m0) (hl _ m01) (hs _ m0 _ m01).1 (hs _ m0 _ m01).2,
            whole_computeIntersection h (hl _ m1) (hl _ m11) (hs _ m1 _ m11).1 (hs _ m1 _ m11).2]
          cases computeIntersection a (toVector a b) v0 v01 with
          | error => rfl
          | ok x =>
            cases computeIntersection a (toVector a b) v1 v11 with
            | error => rfl
            | ok y =>
              simp only [Except.map, ok_bind]
              split <;> rfl

end

/-- The length of a step in a compass direction. -/
theorem compass_step {a b : Pt ℚ} (h : Run a b) (hab : a ≠ b) (hd : Compass a b) :
    ∃ L dx dy : Int, 0 < L ∧ L ≤ 2 ^ 24 ∧ |dx| ≤ 1 ∧ |dy| ≤ 1 ∧ b.x - a.x = L * dx ∧ b.y - a.y = L * dy := by
  obtain ⟨-, ⟨X, eX, bX⟩, ⟨Y, eY, bY⟩⟩ := h.vec
  change b.x - a.x = X at eX
  change b.y - a.y = Y at eY
  have hne : ¬ (X = 0 ∧ Y = 0) := by
    rintro ⟨rfl, rfl⟩
    exact hab (Pt.ext' (by push_cast at eX; linarith) (by push_cast at eY; linarith))
  have hsgn : ∀ z : Int, |z.sign| ≤ 1 := by
    intro z
    rcases lt_trichotomy z 0 with g | g | g
    · rw [Int.sign_eq_neg_one_of_neg g]; norm_num
    · rw [g]; norm_num
    · rw [Int.sign_eq_one_of_pos g]; norm_num
  have hab' : ∀ z : Int, |z| * z.sign = z := fun z => by rw [mul_comm]; exact Int.sign_mul_abs z
  unfold Compass at hd
  rw [eX, eY] at hd
  rcases hd with g | g | g
  · have hX : X = 0 := by exact_mod_cast g
    have hY : Y ≠ 0 := fun g' => hne ⟨hX, g'⟩
    refine ⟨|Y|, 0, Y.sign, abs_pos.2 hY, bY, by norm_num, hsgn _, ?_, ?_⟩
    · rw [eX, hX]; simp
    · rw [eY]; exact_mod_cast (hab' Y).symm
  · have hY : Y = 0 := by exact_mod_cast g
    have hX : X ≠ 0 := fun g' => hne ⟨g', hY⟩
    refine ⟨|X|, X.sign, 0, abs_pos.2 hX, bX, hsgn _, by norm_num, ?_, ?_⟩
    · rw [eX]; exact_mod_cast (hab' X).symm
    · rw [eY, hY]; simp
  · have hXY : |X| = |Y| := by exact_mod_cast g
    have hX : X ≠ 0 := by
      intro g'
      rw [g', abs_zero] at hXY
      exact hne ⟨g', abs_eq_zero.1 hXY.symm⟩
    refine ⟨|X|, X.sign, Y.sign, abs_pos.2 hX, bX, hsgn _, hsgn _, ?_, ?_⟩
    · rw [eX]; exact_mod_cast (hab' X).symm
    · rw [eY, hXY]; exact_mod_cast (hab' Y).symm

theorem Compass.steps {a b : Pt ℚ} (h : Run a b) (hab : a ≠ b) (hd : Compass a b) : Steps a b := by
  obtain ⟨L, dx, dy, h1, h2, h3, h4, h5, h6⟩ := compass_step h hab hd
  exact ⟨L, dx, dy, 1, h1, le_rfl, h3, h4, by linarith, h5, h6⟩

theorem hitFrac_side {a b v w : Pt ℚ} (ha : WholePt a) (hv : WholePt v) (hw : WholePt w) (hx : |w.x - v.x| ≤ 2 ^ 12) (hy : |w.y - v.y| ≤ 2 ^ 12)
    {L dx dy m : Int} (h1 : |dx| ≤ m) (h2 : |dy| ≤ m) (ex : b.x - a.x = L * dx) (ey : b.y - a.y = L * dy)
    (hne : orient a b v ≠ orient a b w) : HitFrac L (2 ^ 13 * m) (hitAt a b (v, w)) := by
  obtain ⟨ax, eax, -⟩ := ha.1
  obtain ⟨ay, eay, -⟩ := ha.2
  obtain ⟨vx, evx, -⟩ := hv.1
  obtain ⟨vy, evy, -⟩ := hv.2
  obtain ⟨X, eX, bX⟩ := (hw.1.sub hv.1).small hx
  obtain ⟨Y, eY, bY⟩ := (hw.2.sub hv.2).small hy
  have hden : orient v w a - orient v w b = L * ((Y * dx - X * dy : Int) : ℚ) := by
    have : orient v w a - orient v w b = (w.y - v.y) * (b.x - a.x) - (w.x - v.x) * (b.y - a.y) := by unfold orient; ring
    rw [this, ex, ey, eX, eY]; push_cast; ring
  have hnum : orient v w a = ((X * (ay - vy) - Y * (ax - vx) : Int) : ℚ) := by
    have : orient v w a = (w.x - v.x) * (a.y - v.y) - (w.y - v.y) * (a.x - v.x) := by unfold orient; ring
    rw [this, eX, eY, eax, eay, evx, evy]; push_cast; ring
  refine ⟨X * (ay - vy) - Y * (ax - vx), Y * dx - X * dy, ?_, ?_, ?_⟩
  · intro h0
    rw [h0, Int.cast_zero, mul_zero] at hden
    have := hitAt_den a b (v, w)
    simp only at this
    exact hne (by linarith)
  · refine (abs_sub _ _).trans ?_
    rw [abs_mul, abs_mul]
    have g1 : |Y| * |dx| ≤ 2 ^ 12 * m := mul_le_mul bY h1 (abs_nonneg _) (by norm_num)
    have g2 : |X| * |dy| ≤ 2 ^ 12 * m := mul_le_mul bX h2 (abs_nonneg _) (by norm_num)
    omega
  · unfold hitAt
    simp only
    rw [hden, hnum]

/-- The clip of a segment to a face is decided exactly, and the ends of the piece are accurate. -/
theorem whole_cyrusBeck {a b : Pt ℚ} (h : Run a b) (hab : a ≠ b) (hd : Steps a b) {tol : ℚ} (t1 : 1 / 2 ^ 200 ≤ tol)
    (t2 : tol ≤ 1 / 2 ^ 20) {l : List (Pt ℚ)} (hl : StrictlyConvex l) (hw : ∀ v ∈ l, WholePt v)
    (hs : ∀ v ∈ l, ∀ w ∈ l, |w.x - v.x| ≤ 2 ^ 12 ∧ |w.y - v.y| ≤ 2 ^ 12) :
    ∃ r r', ClipSpec a b (InPoly l) r ∧ cyrusBeck (fp a) (fp b) (l.map fp) (fin tol) = .ok r' ∧ ClipAcc a b r r' := by
  have hne := hl.convex.ne_nil
  have hp : 0 < l.length := List.length_pos_iff.2 hne
  have hwp : WholePoly l := ⟨hw, fun u hu v hv => ⟨(hs u hu v hv).1.trans (by norm_num), (hs u hu v hv).2.trans (by norm_num)⟩⟩
  obtain ⟨ba, h1, ga⟩ := C121_convex_exact t1 t2 hl.convex hwp (Or.inl rfl) h.first
  obtain ⟨bb, h2, gb⟩ := C121_convex_exact t1 t2 hl.convex hwp (Or.inl rfl) h.second
  have x1 := h1
  have x2 := h2
  rw [whole_polygon t1 t2 h.first hwp] at x1
  rw [whole_polygon t1 t2 h.second hwp] at x2
  obtain ⟨aa, y1, z1⟩ := pointInPolygonOrOnEdge_eq a hne tol
  obtain ⟨bb', y2, z2⟩ := pointInPolygonOrOnEdge_eq b hne tol
  rw [x1] at y1
  rw [x2] at y2
  cases y1
  cases y2
  obtain ⟨r, k1, -, k3⟩ := cyrusBeck_spec hl.convex (a := a) (b := b) (tol := tol) (fun _ s hs z1 z2 => by
      obtain ⟨h1, h2⟩ := hl.two_on_line hs
      exact ⟨h1, fun v hv z => h2 v hv (orient_collinear hab z1 z2 z)⟩)
    (z1.symm.trans ga) (z2.symm.trans gb)
  obtain ⟨ev, v1, v2⟩ := h.vec
  suffices ∃ r', cyrusBeck (fp a) (fp b) (l.map fp) (fin tol) = .ok r' ∧ ClipAcc a b r r' by
    obtain ⟨r', q1, q2⟩ := this
    exact ⟨r, r', k3 hab, q1, q2⟩
  have hz : ¬ ((toVector a b).x == 0 && (toVector a b).y == 0) = true := fun g => hab ((toVector_zero a b).1 g)
  have hz' : ¬ ((fp (toVector a b)).x == (0 : Fl) && (fp (toVector a b)).y == (0 : Fl)) = true := by
    have : ((fp (toVector a b)).x == (0 : Fl) && (fp (toVector a b)).y == (0 : Fl)) = ((toVector a b).x == 0 && (toVector a b).y == 0) := by
      unfold fp
      simp only [zero_def, beq_fin]
      rfl
    rw [this]; exact hz
  unfold cyrusBeck at k1 ⊢
  simp only [ev] at k1 ⊢
  rw [if_neg hz, x1, ok_bind, x2, ok_bind] at k1
  rw [if_neg hz', h1, ok_bind, h2, ok_bind]
  by_cases hin : (ba && bb) = true
  · rw [if_pos hin] at k1 ⊢
    cases k1
    exact ⟨_, rfl, endAcc_self, endAcc_self⟩
  · rw [if_neg hin] at k1 ⊢
    rw [rd_corner_lt hp hp, ok_bind] at k1
    rw [rd_fp, rd_corner_lt hp hp, List.length_map]
    simp only [Except.map, ok_bind]
    obtain ⟨e0, w1, w2⟩ := whole_toVector h.first (hw _ (rd_mem (rd_corner_lt hp hp)))
    rw [e0, (whole_cross_le w1 w2 v1 v2 (by norm_num)).1, whole_cbScan h hw]
    obtain ⟨sc, h3, h4⟩ := cbScan_spec a b l hp l.length 0 0 (-1) (-1) (by omega)
      (Or.inl ⟨rfl, rfl, fun m hm => by omega⟩)
    rw [h3, ok_bind] at k1
    rw [h3]
    simp only [Except.map, ok_bind]
    match sc, h4 with
    | .collinear r0, h4 =>
      simp only at k1
      cases k1
      exact ⟨_, rfl, clipAcc_self _⟩
    | .found k i0 i1, h4 =>
      rcases h4 with ⟨rfl, h4⟩ | ⟨rfl, j0, j1, rfl, rfl, l0, l1, c0, c1, c2⟩
      · simp only [if_true] at k1
        cases k1
        exact ⟨_, rfl, trivial⟩
      · have d1 := onLeft_ne c0
        have d2 := onLeft_ne (a := a) (b := b) (poly := l) (hp := hp) (j := j1) (j' := j1 + 1) (by rw [c2, c1, Bool.not_not])
        obtain ⟨s, t, g, hperm⟩ := cbIntersections_eq a b hp l0 l1 d1 d2
        simp only [two_ne_zero, if_false, g, ok_bind] at k1
        cases k1
        refine ⟨cbFinish (fp a) (fp b) (fp (toVector a b)) ba bb (fin (rq s)) (fin (rq t)), ?_, ?_⟩
        · simp only [scanFp, two_ne_zero, if_false]
          rw [whole_cbIntersections h hw hs, g]
          rfl
        have s0 := side_corner hp l0
        have s1 := side_corner hp l1
        obtain ⟨n0, n0'⟩ := mem_sides_mem s0
        obtain ⟨n1, n1'⟩ := mem_sides_mem s1
        obtain ⟨L, dx, dy, m, L0, m0', q1, q2, L1', ex, ey⟩ := hd
        have L1 : 1 ≤ 2 ^ 13 * m ∧ L * (2 ^ 13 * m) ^ 2 ≤ 2 ^ 50 := by
          refine ⟨by omega, ?_⟩
          have : L * (2 ^ 13 * m) ^ 2 = 2 ^ 26 * (L * m ^ 2) := by ring
          rw [this]
          linarith
        have f0 := hitFrac_side h.first (hw _ n0) (hw _ n0') (hs _ n0 _ n0').1 (hs _ n0 _ n0').2 q1 q2 ex ey d1
        have f1 := hitFrac_side h.first (hw _ n1) (hw _ n1') (hs _ n1 _ n1').1 (hs _ n1 _ n1').2 q1 q2 ex ey d2
        have hst : HitFrac L (2 ^ 13 * m) s ∧ HitFrac L (2 ^ 13 * m) t := by
          rcases hperm with e | e <;> rw [Prod.mk.injEq] at e <;> rw [e.1, e.2]
          · exact ⟨f0, f1⟩
          · exact ⟨f1, f0⟩
        have geo : ∃ lo hi, (∀ u, InPoly l (lineAt a b u) ↔ lo ≤ u ∧ u ≤ hi) ∧ ((s, t) = (lo, hi) ∨ (s, t) = (hi, lo)) := by
          unfold onLeft at c0 c1 c2
          by_cases hL : 0 < orient a b (corner l hp j0)
          · simp only [hL, decide_true, Bool.not_true, decide_eq_false_iff_not, not_lt, decide_eq_true_eq] at c0 c1 c2
            obtain ⟨q1, q2⟩ := hl.convex.line_piece hab s1 s0 c1 c2 hL c0
            refine ⟨_, _, q1, ?_⟩
            rcases hperm with e | e
            · exact Or.inl e
            · right
              rw [Prod.mk.injEq] at e ⊢
              exact ⟨e.2, e.1⟩
          · have hL' := not_lt.1 hL
            simp only [hL, decide_false, Bool.not_false, decide_eq_false_iff_not, not_lt, decide_eq_true_eq] at c0 c1 c2
            obtain ⟨q1, q2⟩ := hl.convex.line_piece hab s0 s1 hL' c0 c1 c2
            refine ⟨_, _, q1, ?_⟩
            rcases hperm with e | e
            · exact Or.inr e
            · left
              rw [Prod.mk.injEq] at e ⊢
              exact ⟨e.2, e.1⟩
        obtain ⟨lo, hi, geo, ht⟩ := geo
        refine whole_cbFinish L0 L1 h hab hst.1 hst.2 ?_ ?_
        · intro g
          have := (geo 0).1 (by rw [lineAt_zero]; exact ga.1 g)
          rcases ht with e | e <;> rw [Prod.mk.injEq] at e <;> rw [e.1, e.2] <;>
            exact ⟨fun o => by linarith [o.1, o.2, this.1, this.2], fun o => by linarith [o.1, o.2, this.1, this.2]⟩
        · intro g
          have := (geo 1).1 (by rw [lineAt_one]; exact gb.1 g)
          rcases ht with e | e <;> rw [Prod.mk.injEq] at e <;> rw [e.1, e.2] <;>
            exact ⟨fun o => by linarith [o.1, o.2, this.1, this.2], fun o => by linarith [o.1, o.2, this.1, this.2]⟩

end Fl

end Celltree
