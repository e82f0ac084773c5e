import Verif.Proofs.FloatSqrtScale
import Verif.Proofs.StretchWeights
import Verif.Props.FloatStretch

/-!
# Interpolation weights in other units, in binary64
-/

set_option linter.unusedSectionVars false

namespace Celltree

section
variable {F : Type} [Add F] [Sub F] [Mul F] [Div F] [Neg F] [LE F] [LT F] [DecidableLE F] [DecidableLT F] [BEq F] [Zero F] [One F]
  {R : Bool → F → F → Prop}

theorem asTriangle_rel' {vs vs' : List (Pt F)} (hv : List.Forall₂ (PtRel R) vs vs') (face : List Int) :
    RelM (fun t t' => PtRel R t.a t'.a ∧ PtRel R t.b t'.b ∧ PtRel R t.c t'.c) (asTriangle vs face) (asTriangle vs' face) := by
  unfold asTriangle
  refine (RelM.of_eq rfl).bind fun i i' hi => ?_
  subst hi
  refine (rdI_rel hv i).bind fun a a' ha => ?_
  refine (RelM.of_eq rfl).bind fun i i' hi => ?_
  subst hi
  refine (rdI_rel hv i).bind fun b b' hb => ?_
  refine (RelM.of_eq rfl).bind fun i i' hi => ?_
  subst hi
  refine (rdI_rel hv i).bind fun c c' hc => ?_
  exact ⟨ha, hb, hc⟩

end

namespace Fl

/-- Related coordinates of moderate size. -/
def PlainRel (k : Int) (_ : Bool) (x x' : Fl) : Prop := Sc k 100 30 x x'

section
variable {k : Int} (hk : k.natAbs ≤ 100)

local notation "Q" => PtRel (PlainRel k)

theorem forall₂_plain (hk : k.natAbs ≤ 100) {l : List (Pt Fl)} (h : PlainPts l) :
    List.Forall₂ Q l (l.map (mapPt (rescale k k))) := by
  rw [List.forall₂_map_right_iff, List.forall₂_same]
  intro p hp
  obtain ⟨c1, c2⟩ := h.1 p hp
  obtain ⟨⟨b1, b2⟩, b3, b4⟩ := h.2 p hp
  have key : ∀ {x : Fl}, Coarse 100 x → -fin (2 ^ 30) ≤ x → x ≤ fin (2 ^ 30) → Sc k 100 30 x (pow2 k * x) := by
    intro x hc h1 h2
    obtain ⟨q, e1, e2, e3, e4⟩ := hc.sc hk (by omega)
    subst e1
    rw [neg_fin, le_fin] at h1
    rw [le_fin] at h2
    exact ⟨q, rfl, e2, e3, abs_le.2 ⟨h1, h2⟩⟩
  exact ⟨key c1 b1 b2, key c2 b3 b4⟩

/-- Related vectors. -/
def VecRel (k : Int) (U U' : Pt Fl) : Prop := Sc k 100 31 U.x U'.x ∧ Sc k 100 31 U.y U'.y

include hk

theorem vecRel {a a' b b' : Pt Fl} (ha : Q a a') (hb : Q b b') : VecRel k (toVector a b) (toVector a' b') :=
  ⟨Sc.sub (e := 100) (E := 30) hb.1 ha.1 (by omega) (by omega), Sc.sub (e := 100) (E := 30) hb.2 ha.2 (by omega) (by omega)⟩

theorem VecRel.cross {U U' V V' : Pt Fl} (hU : VecRel k U U') (hV : VecRel k V V') :
    Sc (k + k) 200 63 (Celltree.cross U V) (Celltree.cross U' V') :=
  (hU.1.mul hV.2 (by omega) (by omega)).sub (hU.2.mul hV.1 (by omega) (by omega)) (by omega) (by omega)

theorem VecRel.dot {U U' V V' : Pt Fl} (hU : VecRel k U U') (hV : VecRel k V V') :
    Sc (k + k) 200 63 (Celltree.dot U V) (Celltree.dot U' V') :=
  (hU.1.mul hV.1 (by omega) (by omega)).add (hU.2.mul hV.2 (by omega) (by omega)) (by omega) (by omega)

theorem VecRel.near {A A' tol tol' : Fl} {U U' : Pt Fl} (hA : Sc (k + k) 200 63 A A') (hU : VecRel k U U') (ht : Sc k 200 100 tol tol') :
    withinPerpendicularDistance A U tol = withinPerpendicularDistance A' U' tol' := by
  have l := (hU.1.mul hU.1 (by omega) (by omega)).add (hU.2.mul hU.2 (by omega) (by omega)) (by omega) (by omega)
  have r := (ht.mul l (by omega) (by omega)).mul ht (by omega) (by omega)
  rw [show k + (k + k) + k = k + k + (k + k) by ring] at r
  unfold withinPerpendicularDistance
  exact decide_eq_decide.2 ((hA.mul hA (by omega) (by omega)).lt r)

omit hk in
theorem sc_one : Sc 0 0 0 (1 : Fl) 1 := ⟨1, rfl, by rw [zpow_zero, one_mul]; rfl, ⟨1, by norm_num⟩, by norm_num⟩

omit hk in
theorem one_one : (1 + 1 : Fl) = fin 2 := by decide +kernel

theorem triangleWeights_pow {a a' b b' c c' p p' : Pt Fl} (ha : Q a a') (hb : Q b b') (hc : Q c c') (hp : Q p p') :
    triangleWeights ⟨a, b, c⟩ p = triangleWeights ⟨a', b', c'⟩ p' := by
  have ab := vecRel hk ha hb
  have ac := vecRel hk ha hc
  have ap := vecRel hk ha hp
  have sa := (ab.cross hk ap).fabs
  have sc := (ac.cross hk ap).fabs
  have s := (ab.cross hk ac).fabs
  unfold triangleWeights fdiv
  simp only
  rw [← s.beq (sc_zero (k + k) 0 0)]
  split
  · rfl
  · next h =>
    have inv := sc_one.div s (by simpa using h) (by omega) (by omega)
    have w := inv.mul sa (by omega) (by omega)
    have v := inv.mul sc (by omega) (by omega)
    rw [show 0 - (k + k) + (k + k) = 0 by ring] at w v
    simp only [ok_bind]
    rw [← w.eq, ← v.eq]

theorem triangles_pow {points points' vs vs' : List (Pt Fl)} (hp : List.Forall₂ Q points points')
    (hv : List.Forall₂ Q vs vs') (f : List Int) (faces : List (List Int)) (sched : List Nat) :
    barycentricTriangleWeights points f faces vs sched = barycentricTriangleWeights points' f faces vs' sched := by
  unfold barycentricTriangleWeights
  rw [hp.length_eq]
  congr 1
  funext i
  refine ((RelM.of_eq (x := rd f i) rfl).bind (T := Eq) fun j j' hj => ?_).eq
  subst hj
  split
  · exact rfl
  · refine (RelM.of_eq rfl).bind fun r r' hr => ?_
    subst hr
    refine (asTriangle_rel' hv r).bind fun t t' ht => ?_
    refine (rd_rel hp i).bind fun p p' hpp => ?_
    exact RelM.of_eq (triangleWeights_pow hk ht.1 ht.2.1 ht.2.2 hpp)

theorem dot_self_nonneg {U U' : Pt Fl} (hU : VecRel k U U') : 0 ≤ Celltree.dot U U := by
  obtain ⟨⟨p, e1, -, g1, b1⟩, q, e2, -, g2, b2⟩ := hU
  unfold Celltree.dot
  rw [e1, e2]
  have n1 := rq_nonneg (mul_self_nonneg p)
  have n2 := rq_nonneg (mul_self_nonneg q)
  have m1 := abs_mul_le_pow b1 b1
  have m2 := abs_mul_le_pow b2 b2
  rw [fin_mul, fin_mul, rnd_fin (m1.trans (pow_le_big (by norm_num))), rnd_fin (m2.trans (pow_le_big (by norm_num))), fin_add,
    rnd_fin ((abs_add_le_pow (abs_rq_le m1) (abs_rq_le m2)).trans (pow_le_big (by norm_num))), zero_def, le_fin]
  exact rq_nonneg (add_nonneg n1 n2)

theorem edgeCase_pow {a a' p p' U U' : Pt Fl} (ha : Q a a') (hp : Q p p') (hU : VecRel k U U') (m i j : Nat) :
    interpEdgeCase env m a U p i j = interpEdgeCase env m a' U' p' i j := by
  have hV := vecRel hk ha hp
  have s1 := (((hV.dot hk hV).mono (e' := 100 + 100) (E' := 32 + 32) (by omega) (by omega)).sqrt (dot_self_nonneg hk hV) hk (by omega) (by omega))
  have s2 := (((hU.dot hk hU).mono (e' := 100 + 100) (E' := 32 + 32) (by omega) (by omega)).sqrt (dot_self_nonneg hk hU) hk (by omega) (by omega))
  unfold interpEdgeCase fdiv
  simp only
  rw [← s2.beq (sc_zero k 0 0)]
  split
  · rfl
  · next h =>
    have w := s1.div s2 (by simpa using h) (by omega) (by omega)
    rw [sub_self] at w
    rw [w.eq]

/-- Related rows of weights while they are normalised: the first `d` are done. Beyond `n` they are zero. -/
structure PowRow (k : Int) (d n : Nat) (w w' : List Fl) : Prop where
  length : w.length = w'.length
  done : ∀ j, j < d → w'[j]? = w[j]?
  todo : ∀ j x x', d ≤ j → w[j]? = some x → w'[j]? = some x' → Sc (k + k - (k + k + (k + k))) 379 464 x x'
  zero : ∀ j x, n ≤ j → w[j]? = some x ∨ w'[j]? = some x → x = 0

omit hk in
theorem PowRow.wr {n i : Nat} {w w' : List Fl} (h : PowRow k 0 n w w') (hi : i < n) {x x' : Fl}
    (hx : Sc (k + k - (k + k + (k + k))) 379 464 x x') : RelM (fun v v' => PowRow k 0 n v v' ∧ v.length = w.length ∧ i < w.length)
      (Celltree.wr w i x) (Celltree.wr w' i x') := by
  unfold Celltree.wr
  rw [← h.length]
  split
  · next hl =>
    have hl' : i < w'.length := h.length ▸ hl
    refine ⟨⟨by rw [List.length_set, List.length_set, h.length], nofun, fun j y y' _ h1 h2 => ?_, fun j y hj hy => ?_⟩, List.length_set, hl⟩
    · rw [List.getElem?_set] at h1 h2
      split at h1
      · next e =>
        subst e
        simp only [hl, hl', if_true, Option.some.injEq] at h1 h2
        subst h1 h2
        exact hx
      · next e =>
        rw [if_neg e] at h2
        exact h.todo j y y' (Nat.zero_le _) h1 h2
    · rw [List.getElem?_set_ne (by omega), List.getElem?_set_ne (by omega)] at hy
      exact h.zero j y hj hy
  · exact rfl

theorem loop_pow {tol tol' : Fl} (htol : Sc k 200 100 tol tol') {polygon polygon' : List (Pt Fl)}
    (hpoly : List.Forall₂ Q polygon polygon') {p p' : Pt Fl} (hp : Q p p') (m n i : Nat) (hi : i + n ≤ polygon.length) {a a' b b' U U' : Pt Fl}
    (ha : Q a a') (hb : Q b b') (hU : VecRel k U U') {Ai Ai' : Fl} (hA : Sc (k + k) 200 63 Ai Ai') {w w' : List Fl}
    (hw : PowRow k 0 polygon.length w w') (hl : w.length ≤ 50) (hil : i ≤ w.length) {s s' : Fl}
    (hs : Sc (k + k - (k + k + (k + k))) 379 (464 + i) s s') :
    RelM (SumRel Eq fun r r' => PowRow k 0 polygon.length r.1 r'.1 ∧ Sc (k + k - (k + k + (k + k))) 379 514 r.2 r'.2)
      (wachspressLoop env polygon p tol m n i a b U Ai w s) (wachspressLoop env polygon' p' tol' m n i a' b' U' Ai' w' s') := by
  induction n generalizing i a a' b b' U U' Ai Ai' w w' s s' with
  | zero => exact ⟨hw, hs.mono le_rfl (by omega)⟩
  | succ n ih =>
    unfold wachspressLoop
    rw [← hpoly.length_eq]
    refine (rd_rel hpoly _).bind fun c c' hc => ?_
    simp only
    have sC := (hU.cross hk (vecRel hk ha hc)).fabs
    have bc := vecRel hk hb hc
    have sA := (bc.cross hk (vecRel hk hb hp)).fabs
    rw [← bc.near hk sA htol]
    split
    · rw [edgeCase_pow hk hb hp bc]
      exact (RelM.of_eq rfl).bind fun r r' hr => hr
    · have den := hA.mul sA (by omega) (by omega)
      have two : Sc 0 0 1 (1 + 1 : Fl) (1 + 1) := by
        rw [one_one]
        exact ⟨2, rfl, by rw [zpow_zero, one_mul], ⟨2, by norm_num⟩, by norm_num⟩
      have num := two.mul sC (by omega) (by omega)
      rw [zero_add, zero_add] at num
      have hd : RelM (Sc (k + k - (k + k + (k + k))) 379 464)
          (fdiv ((1 + 1) * fabs (Celltree.cross U (toVector a c))) (Ai * fabs (Celltree.cross (toVector b c) (toVector b p))))
          (fdiv ((1 + 1) * fabs (Celltree.cross U' (toVector a' c'))) (Ai' * fabs (Celltree.cross (toVector b' c') (toVector b' p')))) := by
        unfold fdiv
        rw [← den.beq (sc_zero _ 0 0)]
        split
        · exact rfl
        · next h => exact (num.div den (by simpa using h) (by omega) (by omega)).mono (by omega) (by omega)
      refine hd.bind fun q q' hq => ?_
      refine (hw.wr (by omega) hq).bind fun v v' hv => ?_
      have hq' : Sc (k + k - (k + k + (k + k))) 379 (464 + i) q q' := hq.mono le_rfl (Nat.le_add_right _ _)
      have hs' : Sc (k + k - (k + k + (k + k))) 379 (464 + i + 1) (s + q) (s' + q') := hs.add hq' (by omega) (by omega)
      exact ih (i + 1) (by omega) hb hc bc sA hv.1 (by omega) (by omega) hs'

omit hk in
theorem normalize_pow {n : Nat} {s s' : Fl} (hs : Sc (k + k - (k + k + (k + k))) 379 514 s s') (l i : Nat) {w w' : List Fl}
    (h : PowRow k i n w w') (hl : i + l = n) :
    RelM (PowRow k n n) ((List.range' i l).foldlM (fun (ws : List Fl) (j : Nat) => do Celltree.wr ws j (← fdiv (← rd ws j) s)) w)
      ((List.range' i l).foldlM (fun (ws : List Fl) (j : Nat) => do Celltree.wr ws j (← fdiv (← rd ws j) s')) w') := by
  induction l generalizing i w w' with
  | zero =>
    obtain rfl : i = n := hl
    exact h
  | succ l ih =>
    rw [List.range'_succ, List.foldlM_cons, List.foldlM_cons]
    have step : RelM (PowRow k (i + 1) n) (do Celltree.wr w i (← fdiv (← rd w i) s)) (do Celltree.wr w' i (← fdiv (← rd w' i) s')) := by
      by_cases hi : i < w.length
      · have hi' : i < w'.length := h.length ▸ hi
        have e := h.todo i _ _ le_rfl (List.getElem?_eq_getElem hi) (List.getElem?_eq_getElem hi')
        rw [rd_of_lt hi, rd_of_lt hi', ok_bind, ok_bind]
        unfold fdiv
        rw [← hs.beq (sc_zero _ 0 0)]
        split
        · exact rfl
        · next hne =>
          have q := e.div hs (by simpa using hne) (by omega) (by omega)
          rw [sub_self] at q
          rw [ok_bind, ok_bind, wr_eq_ok' hi, wr_eq_ok' hi', ← q.eq]
          refine ⟨by rw [List.length_set, List.length_set, h.length], fun j hj => ?_, fun j y y' hj h1 h2 => ?_, fun j y hj hy => ?_⟩
          · rw [List.getElem?_set, List.getElem?_set, h.length]
            split
            · rfl
            · exact h.done j (by omega)
          · rw [List.getElem?_set_ne (by omega)] at h1 h2
            exact h.todo j y y' (by omega) h1 h2
          · rw [List.getElem?_set_ne (by omega), List.getElem?_set_ne (by omega)] at hy
            exact h.zero j y hj hy
      · have e1 : rd w i = .error .oob := by
          unfold rd; rw [List.getElem?_eq_none (by omega)]
        have e2 : rd w' i = .error .oob := by
          unfold rd; rw [List.getElem?_eq_none (by rw [← h.length]; omega)]
        rw [e1, e2]
        exact rfl
    exact step.bind fun v v' hv => ih (i + 1) hv (by omega)

omit hk in
theorem PowRow.eq {n : Nat} {w w' : List Fl} (h : PowRow k n n w w') : w' = w := by
  apply List.ext_getElem?
  intro j
  by_cases hj : j < n
  · exact h.done j hj
  · have hj : n ≤ j := by omega
    by_cases hl : j < w.length
    · have hl' : j < w'.length := h.length ▸ hl
      rw [List.getElem?_eq_getElem hl, List.getElem?_eq_getElem hl', h.zero j _ hj (Or.inl (List.getElem?_eq_getElem hl)),
        h.zero j _ hj (Or.inr (List.getElem?_eq_getElem hl'))]
    · rw [List.getElem?_eq_none (by rw [← h.length]; omega), List.getElem?_eq_none (by omega)]

theorem wachspressWeights_pow {tol tol' : Fl} (htol : Sc k 200 100 tol tol') {polygon polygon' : List (Pt Fl)}
    (hpoly : List.Forall₂ Q polygon polygon') {p p' : Pt Fl} (hp : Q p p') {m : Nat} (hm : m ≤ 50) :
    wachspressWeights env polygon p m tol = wachspressWeights env polygon' p' m tol' := by
  unfold wachspressWeights
  refine RelM.eq ?_
  simp only
  rw [← hpoly.length_eq]
  refine (rdI_rel hpoly (-1)).bind fun a a' ha => ?_
  refine (rd_rel hpoly 0).bind fun b b' hb => ?_
  have ab := vecRel hk ha hb
  have sA := (ab.cross hk (vecRel hk ha hp)).fabs
  rw [← ab.near hk sA htol]
  split
  · exact RelM.of_eq (edgeCase_pow hk ha hp ab _ _ _)
  · have h0 : PowRow k 0 polygon.length (List.replicate m (0 : Fl)) (List.replicate m 0) := by
      refine ⟨rfl, nofun, fun j x x' _ h1 h2 => ?_, fun j x _ hx => ?_⟩
      · rw [List.eq_of_mem_replicate (List.mem_of_getElem? h1), List.eq_of_mem_replicate (List.mem_of_getElem? h2)]
        exact sc_zero _ _ _
      · exact List.eq_of_mem_replicate (List.mem_of_getElem? (hx.elim id id))
    refine (loop_pow hk htol hpoly hp m polygon.length 0 (by omega) ha hb ab sA h0 (by rw [List.length_replicate]; exact hm) (Nat.zero_le _)
      (sc_zero _ _ _)).bind fun r r' hr => ?_
    match r, r', hr with
    | .inl r, .inl r', hr => exact hr
    | .inr (w, s), .inr (w', s'), ⟨h1, h2⟩ =>
      simp only at h1 h2 ⊢
      unfold normalizeWeights
      rw [List.range_eq_range']
      exact (normalize_pow h2 polygon.length 0 h1 (Nat.zero_add _)).mono fun v v' hv => hv.eq.symm

theorem wachspress_pow {tol tol' : Fl} (htol : Sc k 200 100 tol tol') {points points' vs vs' : List (Pt Fl)}
    (hp : List.Forall₂ Q points points') (hv : List.Forall₂ Q vs vs') (f : List Int) (faces : List (List Int)) {m : Nat} (hm : m ≤ 50)
    (sched : List Nat) :
    barycentricWachspressWeights env points f faces m vs tol sched = barycentricWachspressWeights env points' f faces m vs' tol' sched := by
  unfold barycentricWachspressWeights
  rw [hp.length_eq]
  congr 1
  funext i
  refine ((RelM.of_eq (x := rd f i) rfl).bind (T := Eq) fun j j' hj => ?_).eq
  subst hj
  split
  · exact rfl
  · refine (RelM.of_eq rfl).bind fun r r' hr => ?_
    subst hr
    refine (copyVertices_rel hv r).bind fun t t' ht => ?_
    refine (rd_rel hp i).bind fun p p' hpp => ?_
    exact RelM.of_eq (wachspressWeights_pow hk htol ht hpp hm)

end

end Fl

end Celltree
