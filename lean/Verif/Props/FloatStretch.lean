import Verif.Spec.FloatStretch
import Verif.Proofs.FloatScale
import Verif.Proofs.FloatBuild
import Verif.Props.Stretch

/-!
# Meshes in other units, in binary64: C116
-/

set_option linter.unusedSectionVars false

namespace Celltree.Fl

theorem natAbs_le_of_abs {k : Int} (h : |k| ≤ 100) : k.natAbs ≤ 100 := by
  have := abs_le.1 h
  omega

/-- The exponent of an axis. -/
def axisExp (kx ky : Int) (d : Bool) : Int := if d then ky else kx

/-- The relation between coordinates. -/
def ScaleRel (kx ky : Int) (d : Bool) (x x' : Fl) : Prop := Coarse 100 x ∧ x' = rescale kx ky d x

theorem Coarse.sc {k : Int} {e : Nat} {x : Fl} (h : Coarse e x) (hk : k.natAbs ≤ 100) (he : e ≤ 900) :
    Sc k e 100 x (pow2 k * x) := by
  obtain ⟨q, rfl, hr, hg, hb⟩ := h
  have hg' : Grid e q := hg
  refine ⟨q, rfl, ?_, hg, hb⟩
  unfold pow2
  rw [fin_mul, rnd_fin ((zpow_mul_le hb).trans (pow_le_big (by omega))),
    rq_scale_of (or_iff_not_imp_left.2 hg'.le_abs) (by omega), rq_of_isRep hr]

variable {kx ky : Int}

theorem ScaleRel.sc (hkx : kx.natAbs ≤ 100) (hky : ky.natAbs ≤ 100) {d : Bool} {x x' : Fl} (h : ScaleRel kx ky d x x') :
    Sc (axisExp kx ky d) 100 100 x x' := by
  obtain ⟨h1, rfl⟩ := h
  refine h1.sc ?_ (by omega)
  cases d
  · exact hkx
  · exact hky

theorem axisExp_le (hkx : kx.natAbs ≤ 100) (hky : ky.natAbs ≤ 100) (d : Bool) : (axisExp kx ky d).natAbs ≤ 100 := by
  cases d
  · exact hkx
  · exact hky

theorem scale_order (hkx : kx.natAbs ≤ 100) (hky : ky.natAbs ≤ 100) : SimilarOrder (ScaleRel kx ky) := by
  refine ⟨fun h1 h2 => (h1.sc hkx hky).lt (h2.sc hkx hky), fun h1 h2 => (h1.sc hkx hky).le (h2.sc hkx hky), ?_⟩
  intro d x x' l l' r r' hx hl hr
  have hk := axisExp_le hkx hky d
  have hx := hx.sc hkx hky
  exact ((hl.sc hkx hky).sub hx (by omega) (by omega)).lt (hx.sub (hr.sc hkx hky) (by omega) (by omega))

theorem sc_half : Sc 0 1 0 (half : Fl) half := by
  rw [half_fl]
  exact ⟨1 / 2, rfl, by rw [zpow_zero, one_mul], ⟨1, by norm_num⟩, by norm_num [abs_of_pos]⟩

theorem sc_natCast {i : Nat} (h : i ≤ 2 ^ 53) : Sc 0 0 53 (((i : Nat) : Int) : Fl) (((i : Nat) : Int) : Fl) :=
  sc_int (by rw [Nat.abs_cast]; exact_mod_cast h) (by norm_num)

theorem natCast_ne {n : Nat} (h1 : 1 ≤ n) (h : n ≤ 2 ^ 53) : ((((n : Nat) : Int) : Fl) == 0) = false := by
  rw [intCast_fl, rnd_fin, zero_def, beq_fin, decide_eq_false_iff_not, rq_of_isRep]
  · have : ((n : ℤ) : ℚ) ≠ 0 := by exact_mod_cast (by omega : n ≠ 0)
    exact this
  · rcases Nat.lt_or_ge n (2 ^ 53) with h' | h'
    · exact ⟨n, 0, by simp, by rw [Nat.abs_cast]; exact_mod_cast h', by norm_num⟩
    · have : n = 2 ^ 53 := le_antisymm h h'
      subst this
      exact ⟨1, 53, by norm_num, by norm_num, by norm_num⟩
  · refine le_trans ?_ (pow_le_big (k := 53) (by norm_num))
    rw [abs_of_nonneg (by positivity)]
    exact_mod_cast h

section
variable {d : Bool} {n : Nat} (hkx : kx.natAbs ≤ 100) (hky : ky.natAbs ≤ 100) (h1 : 1 ≤ n) (h2 : n ≤ 2 ^ 53)
include hkx hky

theorem sc_centroid {lo lo' hi hi' : Fl} (hlo : ScaleRel kx ky d lo lo') (hhi : ScaleRel kx ky d hi hi') :
    Sc (axisExp kx ky d) 101 102 (lo + half * (hi - lo)) (lo' + half * (hi' - lo')) := by
  have hk := axisExp_le hkx hky d
  have hlo := hlo.sc hkx hky
  have hhi := hhi.sc hkx hky
  have s := sc_half.mul (hhi.sub hlo (by omega) (by omega)) (by omega) (by omega)
  rw [zero_add, zero_add] at s
  exact (hlo.mono (by omega) (by omega)).add s (by omega) (by omega)

include h1 h2

theorem sc_length {a a' b b' : Fl} (ha : ScaleRel kx ky d a a') (hb : ScaleRel kx ky d b b') :
    Sc (axisExp kx ky d) 206 101 ((b - a) / ((n : Int) : Fl)) ((b' - a') / ((n : Int) : Fl)) := by
  have hk := axisExp_le hkx hky d
  have s := ((hb.sc hkx hky).sub (ha.sc hkx hky) (by omega) (by omega)).div (sc_natCast h2) (natCast_ne h1 h2) (by omega) (by omega)
  rw [sub_zero] at s
  exact s

theorem sc_plane {a a' b b' : Fl} (ha : ScaleRel kx ky d a a') (hb : ScaleRel kx ky d b b') {i : Nat} (hi : i ≤ n) :
    Sc (axisExp kx ky d) 206 155 (((i : Nat) : Int) * ((b - a) / ((n : Int) : Fl)) + a)
      (((i : Nat) : Int) * ((b' - a') / ((n : Int) : Fl)) + a') := by
  have hk := axisExp_le hkx hky d
  have s := (sc_natCast (hi.trans h2)).mul (sc_length hkx hky h1 h2 ha hb) (by omega) (by omega)
  rw [zero_add, zero_add] at s
  exact s.add ((ha.sc hkx hky).mono (by omega) (by omega)) (by omega) (by omega)

theorem scale_similar : Similar (ScaleRel kx ky) env n := by
  refine ⟨scale_order hkx hky, ?_, ?_, ?_, ?_, ?_, ?_⟩
  · intro d x x' h
    have hk := axisExp_le hkx hky d
    exact ((h.sc hkx hky).ok (by omega)).1
  · intro d x x' h
    have hk := axisExp_le hkx hky d
    exact ((h.sc hkx hky).ok (by omega)).2
  · intro d lo lo' hi hi' a a' b b' hlo hhi ha hb i hi
    exact (sc_centroid hkx hky hlo hhi).lt (sc_plane hkx hky h1 h2 ha hb hi)
  · intro d lo lo' hi hi' a a' b b' hlo hhi ha hb i hi
    exact (sc_plane hkx hky h1 h2 ha hb hi).le (sc_centroid hkx hky hlo hhi)
  · intro d a a' b b' ha hb
    exact (sc_length hkx hky h1 h2 ha hb).beq (sc_zero _ 0 0)
  · intro d a a' b b' x x' y y' ha hb hx hy h0
    have hk := axisExp_le hkx hky d
    have s := ((hy.sc hkx hky).sub (hx.sc hkx hky) (by omega) (by omega)).div (sc_length hkx hky h1 h2 ha hb) h0 (by omega) (by omega)
    rw [sub_self] at s
    exact s.eq

end

section
variable (hkx : kx.natAbs ≤ 100) (hky : ky.natAbs ≤ 100)
include hkx hky

theorem sc_cross {a a' b b' c c' : Pt Fl} (ha : PtRel (ScaleRel kx ky) a a') (hb : PtRel (ScaleRel kx ky) b b')
    (hc : PtRel (ScaleRel kx ky) c c') :
    Sc (kx + ky) 200 203 (cross (toVector a b) (toVector a c)) (cross (toVector a' b') (toVector a' c')) := by
  have a1 : Sc kx 100 100 _ _ := ha.1.sc hkx hky
  have a2 : Sc ky 100 100 _ _ := ha.2.sc hkx hky
  have b1 : Sc kx 100 100 _ _ := hb.1.sc hkx hky
  have b2 : Sc ky 100 100 _ _ := hb.2.sc hkx hky
  have c1 : Sc kx 100 100 _ _ := hc.1.sc hkx hky
  have c2 : Sc ky 100 100 _ _ := hc.2.sc hkx hky
  have s1 := (b1.sub a1 (by omega) (by omega)).mul (c2.sub a2 (by omega) (by omega)) (by omega) (by omega)
  have s2 := (b2.sub a2 (by omega) (by omega)).mul (c1.sub a1 (by omega) (by omega)) (by omega) (by omega)
  rw [add_comm ky kx] at s2
  exact s1.sub s2 (by omega) (by omega)

theorem scale_turn : SimilarTurn (ScaleRel kx ky) := by
  constructor
  · intro a a' b b' c c' ha hb hc
    exact (sc_cross hkx hky ha hb hc).beq (sc_zero _ 0 0)
  · intro a a' b b' c c' ha hb hc
    exact (sc_cross hkx hky ha hb hc).lt (sc_zero _ 0 0)

end

/-! ## Points -/

section
variable {k : Int} (hk : k.natAbs ≤ 100)
include hk

theorem scale_near {tol : Fl} (htol : Coarse 200 tol) {p p' a a' b b' : Pt Fl} (hp : PtRel (ScaleRel k k) p p')
    (ha : PtRel (ScaleRel k k) a a') (hb : PtRel (ScaleRel k k) b b') :
    withinPerpendicularDistance (cross (toVector p a) (toVector p b)) (toVector a b) tol =
      withinPerpendicularDistance (cross (toVector p' a') (toVector p' b')) (toVector a' b') (pow2 k * tol) := by
  have sc := sc_cross hk hk hp ha hb
  have s := sc.mul sc (by omega) (by omega)
  have st := htol.sc hk (by omega)
  have a1 : Sc k 100 100 _ _ := ha.1.sc hk hk
  have a2 : Sc k 100 100 _ _ := ha.2.sc hk hk
  have b1 : Sc k 100 100 _ _ := hb.1.sc hk hk
  have b2 : Sc k 100 100 _ _ := hb.2.sc hk hk
  have u := b1.sub a1 (by omega) (by omega)
  have v := b2.sub a2 (by omega) (by omega)
  have l := (u.mul u (by omega) (by omega)).add (v.mul v (by omega) (by omega)) (by omega) (by omega)
  have r := (st.mul l (by omega) (by omega)).mul st (by omega) (by omega)
  rw [show k + (k + k) + k = k + k + (k + k) by ring] at r
  unfold withinPerpendicularDistance
  exact decide_eq_decide.2 (s.lt r)

theorem scale_bounds {p p' a a' b b' : Pt Fl} (hp : PtRel (ScaleRel k k) p p')
    (ha : PtRel (ScaleRel k k) a a') (hb : PtRel (ScaleRel k k) b b') : inBounds p a b = inBounds p' a' b' := by
  have p1 : Sc k 100 100 _ _ := hp.1.sc hk hk
  have p2 : Sc k 100 100 _ _ := hp.2.sc hk hk
  have a1 : Sc k 100 100 _ _ := ha.1.sc hk hk
  have a2 : Sc k 100 100 _ _ := ha.2.sc hk hk
  have b1 : Sc k 100 100 _ _ := hb.1.sc hk hk
  have b2 : Sc k 100 100 _ _ := hb.2.sc hk hk
  have dx := ((a1.fmax b1).sub (a1.fmin b1) (by omega) (by omega)).fabs
  have dy := ((a2.fmax b2).sub (a2.fmin b2) (by omega) (by omega)).fabs
  unfold inBounds
  simp only [ge_iff_le]
  rw [decide_eq_decide.2 (dy.le dx), decide_eq_decide.2 ((a1.fmin b1).le p1), decide_eq_decide.2 (p1.le (a1.fmax b1)),
    decide_eq_decide.2 ((a2.fmin b2).le p2), decide_eq_decide.2 (p2.le (a2.fmax b2))]

theorem scale_ray {p p' a a' b b' : Pt Fl} (hp : PtRel (ScaleRel k k) p p')
    (ha : PtRel (ScaleRel k k) a a') (hb : PtRel (ScaleRel k k) b b') : rayCrosses p a b = rayCrosses p' a' b' := by
  have p1 : Sc k 100 100 _ _ := hp.1.sc hk hk
  have p2 : Sc k 100 100 _ _ := hp.2.sc hk hk
  have a1 : Sc k 100 100 _ _ := ha.1.sc hk hk
  have a2 : Sc k 100 100 _ _ := ha.2.sc hk hk
  have b1 : Sc k 100 100 _ _ := hb.1.sc hk hk
  have b2 : Sc k 100 100 _ _ := hb.2.sc hk hk
  have dy := b2.sub a2 (by omega) (by omega)
  have nu := (b1.sub a1 (by omega) (by omega)).mul (p2.sub a2 (by omega) (by omega)) (by omega) (by omega)
  unfold rayCrosses fdiv
  simp only [gt_iff_lt]
  rw [decide_eq_decide.2 (p2.lt a2), decide_eq_decide.2 (p2.lt b2), ← dy.beq (sc_zero k 0 0)]
  by_cases h0 : (b.y - a.y == 0) = true
  · simp only [if_pos h0]
    rfl
  · simp only [if_neg h0, ok_bind]
    have s := nu.div dy (by simpa using h0) (by omega) (by omega)
    rw [add_sub_cancel_right] at s
    have s' := s.add (a1.mono (by omega) (by omega)) (by omega) (by omega)
    rw [decide_eq_decide.2 (p1.lt s')]

theorem scale_point {tol : Fl} (htol : Coarse 200 tol) : SimilarPoint (ScaleRel k k) tol (pow2 k * tol) := by
  refine ⟨?_, scale_near hk htol, scale_bounds hk, scale_ray hk⟩
  intro a a' b b' ha hb
  have a1 : Sc k 100 100 _ _ := ha.1.sc hk hk
  have a2 : Sc k 100 100 _ _ := ha.2.sc hk hk
  have b1 : Sc k 100 100 _ _ := hb.1.sc hk hk
  have b2 : Sc k 100 100 _ _ := hb.2.sc hk hk
  unfold Pt.eqv
  rw [a1.beq b1, a2.beq b2]

end

theorem forall₂_rescale {l : List (Pt Fl)} (h : CoarsePts l) : List.Forall₂ (PtRel (ScaleRel kx ky)) l (l.map (mapPt (rescale kx ky))) := by
  rw [List.forall₂_map_right_iff, List.forall₂_same]
  exact fun p hp => ⟨⟨(h p hp).1, rfl⟩, (h p hp).2, rfl⟩

/-- Everything about the construction at once. -/
theorem scale_init {vertices : List (Pt Fl)} {faces : IntArr} {fill nBuckets cellsPerLeaf : Int} {sched : List Nat}
    (hkx : kx.natAbs ≤ 100) (hky : ky.natAbs ≤ 100) (hnb : nBuckets ≤ 2 ^ 53) (hv : CoarsePts vertices) :
    RelM (TreeRel (ScaleRel kx ky)) (CellTree.init env vertices faces fill nBuckets cellsPerLeaf sched)
      (CellTree.init env (vertices.map (mapPt (rescale kx ky))) faces fill nBuckets cellsPerLeaf sched) := by
  by_cases h : nBuckets < 2
  · unfold CellTree.init
    rw [if_pos h, if_pos h]
    exact rfl
  · refine init_rel (scale_similar hkx hky (by omega) (by omega)) (scale_turn hkx hky) (forall₂_rescale hv) ⟨?_, ?_⟩ sched
    · exact nofun
    · exact nofun

end Fl

open Fl

variable {vertices : List (Pt Fl)} {faces : IntArr} {fill nBuckets cellsPerLeaf : Int} {sched : List Nat} {t t' : CellTree Fl}

/-- **C116**, construction (binary64): the coordinates are multiplied by powers of two. The tree is the tree of the mesh in the new
units, bit for bit: the same nodes with the same cells in the same order, and the splitting planes are multiplied. If one of the two
constructions fails, the other fails in the same way. -/
theorem C116_same_tree {kx ky : Int} (hkx : |kx| ≤ 100) (hky : |ky| ≤ 100) (hnb : nBuckets ≤ 2 ^ 53) (hv : CoarsePts vertices) :
    (∀ t, CellTree.init Fl.env vertices faces fill nBuckets cellsPerLeaf sched = .ok t →
      ∃ t', CellTree.init Fl.env (vertices.map (mapPt (rescale kx ky))) faces fill nBuckets cellsPerLeaf sched = .ok t' ∧
        SameShape (rescale kx ky) t t' ∧ Celltree.toDictOfLists t'.data.nodes = Celltree.toDictOfLists t.data.nodes) ∧
    ∀ e, CellTree.init Fl.env vertices faces fill nBuckets cellsPerLeaf sched = .error e ↔
      CellTree.init Fl.env (vertices.map (mapPt (rescale kx ky))) faces fill nBuckets cellsPerLeaf sched = .error e := by
  have h := scale_init (kx := kx) (ky := ky) (faces := faces) (fill := fill) (cellsPerLeaf := cellsPerLeaf)
    (sched := sched) (natAbs_le_of_abs hkx) (natAbs_le_of_abs hky) hnb hv
  constructor
  · intro t ht
    obtain ⟨t', h1, h2⟩ := h.ok_left ht
    have h3 := h2.sameShape fun d x x' h => h.2
    exact ⟨t', h1, h3, h3.toDictOfLists⟩
  · intro e
    exact h.error_iff e

/-- **C116**, `locate_boxes` (binary64): the coordinates of mesh and boxes are multiplied by powers of two, which need not be the same
for `x` and `y`. The result is the same, in the same order. -/
theorem C116_locate_boxes {kx ky : Int} (hkx : |kx| ≤ 100) (hky : |ky| ≤ 100) (hnb : nBuckets ≤ 2 ^ 53) (hv : CoarsePts vertices)
    (ht : CellTree.init Fl.env vertices faces fill nBuckets cellsPerLeaf sched = .ok t)
    (ht' : CellTree.init Fl.env (vertices.map (mapPt (rescale kx ky))) faces fill nBuckets cellsPerLeaf sched = .ok t')
    {boxes : List (Box Fl)} (hb : CoarseBoxes boxes) (nThreads : Nat) (sched1 : List Nat) :
    t'.locateBoxes (boxes.map (mapBox (rescale kx ky))) nThreads sched1 = t.locateBoxes boxes nThreads sched1 := by
  have hkx' := natAbs_le_of_abs hkx
  have hky' := natAbs_le_of_abs hky
  obtain ⟨t'', h1, h2⟩ := (scale_init hkx' hky' hnb hv).ok_left ht
  rw [ht'] at h1
  cases h1
  refine (locateBoxes_rel (scale_order hkx' hky') h2 ?_ nThreads sched1).symm
  rw [List.forall₂_map_right_iff, List.forall₂_same]
  intro b hmem
  have h := hb b hmem
  exact boxRel_iff.2 ⟨⟨h.1.1, rfl⟩, ⟨h.1.2, rfl⟩, ⟨h.2.1, rfl⟩, h.2.2, rfl⟩

/-- **C116**, `locate_points` (binary64): the coordinates of mesh and points, and the tolerance, are multiplied by the same power of two.
Every point is located in the same face, with all the rounding errors of the two computations. -/
theorem C116_locate_points {k : Int} {tol : Fl} (hk : |k| ≤ 100) (hnb : nBuckets ≤ 2 ^ 53) (hv : CoarsePts vertices) (htol : Coarse 200 tol)
    (ht : CellTree.init Fl.env vertices faces fill nBuckets cellsPerLeaf sched = .ok t)
    (ht' : CellTree.init Fl.env (vertices.map (mapPt (rescale k k))) faces fill nBuckets cellsPerLeaf sched = .ok t')
    {points : List (Pt Fl)} (hp : CoarsePts points) (sched1 : List Nat) :
    t'.locatePoints Fl.env (points.map (mapPt (rescale k k))) (some (pow2 k * tol)) sched1 =
      t.locatePoints Fl.env points (some tol) sched1 := by
  have hk' := natAbs_le_of_abs hk
  obtain ⟨t'', h1, h2⟩ := (scale_init hk' hk' hnb hv).ok_left ht
  rw [ht'] at h1
  cases h1
  exact (locatePoints_rel (scale_order hk' hk') (scale_point hk' htol) h2 (forall₂_rescale hp) sched1).symm

/-! ## Examples -/

/-- A test for `Coarse`. -/
def Fl.coarseTest (e : Nat) : Fl → Bool
  | fin q => decide (rq q = q) && decide ((q * 2 ^ e).den = 1) && decide (|q| ≤ 2 ^ 100)
  | _ => false

theorem Fl.coarse_of {e : Nat} {x : Fl} (h : coarseTest e x = true) : Coarse e x := by
  cases x with
  | fin q =>
    unfold coarseTest at h
    simp only [Bool.and_eq_true, decide_eq_true_eq] at h
    refine ⟨q, rfl, h.1.1 ▸ rq_isRep q, ⟨(q * 2 ^ e).num, ?_⟩, h.2⟩
    exact ((Rat.den_eq_one_iff _).1 h.1.2).symm
  | _ => cases h

namespace Ex

/-- Two triangles that share a side. The coordinates are not exact in binary64. -/
def tenths : List (Pt Fl) := [⟨rnd (1 / 10), rnd (1 / 10)⟩, ⟨rnd (4 / 10), rnd (2 / 10)⟩, ⟨rnd (5 / 10), rnd (7 / 10)⟩,
  ⟨rnd (2 / 10), rnd (6 / 10)⟩]

def tenthFaces : IntArr := ⟨3, [[0, 1, 2], [0, 2, 3]]⟩

/-- Points of the common side, rounded. -/
def tenthPoints : List (Pt Fl) := (List.range 12).map fun (i : Nat) => ⟨rnd (1 / 10 + (i : ℚ) / 30), rnd (1 / 10 + 6 * (i : ℚ) / 120)⟩

theorem tenths_coarse : CoarsePts tenths ∧ CoarsePts tenthPoints := by
  have h : ∀ l : List (Pt Fl), (l.all fun p => coarseTest 100 p.x && coarseTest 100 p.y) = true → CoarsePts l := by
    intro l hl p hp
    have := List.all_eq_true.1 hl p hp
    rw [Bool.and_eq_true] at this
    exact ⟨coarse_of this.1, coarse_of this.2⟩
  exact ⟨h _ (by decide +kernel), h _ (by decide +kernel)⟩

end Ex

set_option synthInstance.maxSize 1000 in
/-- Without a tolerance the rounding errors decide where the points of the common side are: some in the first triangle, some in the
second, some in none. They decide in the same way if the unit is divided by 1024, since that is a power of two. -/
example : ∃ t t', CellTree.init Fl.env Ex.tenths Ex.tenthFaces (-1) 4 1 [0, 1] = .ok t ∧
    CellTree.init Fl.env (Ex.tenths.map (mapPt (rescale 10 10))) Ex.tenthFaces (-1) 4 1 [0, 1] = .ok t' ∧
    t.locatePoints Fl.env Ex.tenthPoints (some 0) (List.range 12) = .ok [-1, -1, 1, 0, 0, -1, 1, -1, 1, 1, 0, 1] ∧
    t'.locatePoints Fl.env (Ex.tenthPoints.map (mapPt (rescale 10 10))) (some (pow2 10 * 0)) (List.range 12) =
      .ok [-1, -1, 1, 0, 0, -1, 1, -1, 1, 1, 0, 1] := by
  obtain ⟨t, h1, h2⟩ := bind_eq_ok.1 (show (CellTree.init Fl.env Ex.tenths Ex.tenthFaces (-1) 4 1 [0, 1] >>= fun t =>
    t.locatePoints Fl.env Ex.tenthPoints (some 0) (List.range 12)) = .ok [-1, -1, 1, 0, 0, -1, 1, -1, 1, 1, 0, 1] by decide +kernel)
  obtain ⟨t', h1', -⟩ := (C116_same_tree (kx := 10) (ky := 10) (by norm_num) (by norm_num) (by norm_num) Ex.tenths_coarse.1).1 t h1
  refine ⟨t, t', h1, h1', h2, ?_⟩
  rw [← h2]
  exact C116_locate_points (by norm_num) (by norm_num) Ex.tenths_coarse.1 (Fl.coarse_of (by decide +kernel)) h1 h1' Ex.tenths_coarse.2 _

set_option synthInstance.maxSize 1000 in
/-- Different units for the two axes. -/
example : ∃ t t', CellTree.init Fl.env Ex.tenths Ex.tenthFaces (-1) 4 1 [0, 1] = .ok t ∧
    CellTree.init Fl.env (Ex.tenths.map (mapPt (rescale (-7) 50))) Ex.tenthFaces (-1) 4 1 [0, 1] = .ok t' ∧
    t'.locateBoxes ([⟨rnd (1 / 10), rnd (15 / 100), rnd (1 / 10), 1⟩, ⟨rnd (4 / 10), 1, 0, rnd (1 / 2)⟩].map (mapBox (rescale (-7) 50))) 2 [1, 0] =
      .ok ([0, 0, 1, 1], [1, 0, 1, 0]) := by
  obtain ⟨t, h1, h2⟩ := bind_eq_ok.1 (show (CellTree.init Fl.env Ex.tenths Ex.tenthFaces (-1) 4 1 [0, 1] >>= fun t =>
    t.locateBoxes [⟨rnd (1 / 10), rnd (15 / 100), rnd (1 / 10), 1⟩, ⟨rnd (4 / 10), 1, 0, rnd (1 / 2)⟩] 2 [1, 0]) =
      .ok ([0, 0, 1, 1], [1, 0, 1, 0]) by decide +kernel)
  obtain ⟨t', h1', -⟩ := (C116_same_tree (kx := -7) (ky := 50) (by norm_num) (by norm_num) (by norm_num) Ex.tenths_coarse.1).1 t h1
  refine ⟨t, t', h1, h1', ?_⟩
  rw [← h2]
  refine C116_locate_boxes (by norm_num) (by norm_num) (by norm_num) Ex.tenths_coarse.1 h1 h1' (fun b hb => ?_) 2 [1, 0]
  simp only [List.mem_cons, List.not_mem_nil, or_false] at hb
  rcases hb with rfl | rfl <;>
    exact ⟨⟨Fl.coarse_of (by decide +kernel), Fl.coarse_of (by decide +kernel)⟩, Fl.coarse_of (by decide +kernel), Fl.coarse_of (by decide +kernel)⟩

/-- **C116**, what does not hold: with other units than powers of two, the points are located in other triangles. Here the coordinates are
multiplied by 3. -/
theorem C116_other_units_differ :
    (CellTree.init Fl.env Ex.tenths Ex.tenthFaces (-1) 4 1 [0, 1] >>= fun t =>
      t.locatePoints Fl.env Ex.tenthPoints (some 0) (List.range 12)) = .ok [-1, -1, 1, 0, 0, -1, 1, -1, 1, 1, 0, 1] ∧
    (CellTree.init Fl.env (Ex.tenths.map (mapPt fun _ x => fin 3 * x)) Ex.tenthFaces (-1) 4 1 [0, 1] >>= fun t =>
      t.locatePoints Fl.env (Ex.tenthPoints.map (mapPt fun _ x => fin 3 * x)) (some (fin 3 * 0)) (List.range 12)) =
      .ok [-1, 0, 1, 0, 0, 0, 1, 1, 1, 0, 0, 1] := by
  constructor <;> decide +kernel

end Celltree
