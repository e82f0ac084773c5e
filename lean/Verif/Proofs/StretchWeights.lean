import Verif.Proofs.StretchEdges

/-!
# Interpolation weights in scaled coordinates
-/

set_option linter.unusedSectionVars false

namespace Celltree

section
variable {K : Type} [Field K] [LinearOrder K] [IsStrictOrderedRing K] {env : Env K} {k x0 y0 : K}

local notation "Q" => PtRel (StretchRel k k x0 y0)

theorem fabs_mul_pos {c : K} (hc : 0 < c) (x : K) : fabs (c * x) = c * fabs x := by
  rw [fabs_eq, fabs_eq, abs_mul, abs_of_pos hc]

theorem uniform_dot (U V : Pt K) : dot (⟨k * U.x, k * U.y⟩ : Pt K) ⟨k * V.x, k * V.y⟩ = k * k * dot U V := by
  unfold dot
  ring

theorem uniform_within (hk : 0 < k) (A : K) (U : Pt K) (tol : K) :
    withinPerpendicularDistance (k * k * A) (⟨k * U.x, k * U.y⟩ : Pt K) (k * tol) = withinPerpendicularDistance A U tol := by
  unfold withinPerpendicularDistance lengthSquared
  rw [decide_eq_decide]
  simp only
  rw [← mul_lt_mul_iff_right₀ (show 0 < k ^ 4 by positivity) (b := A * A)]
  apply iff_of_eq
  congr 1 <;> ring

theorem triangleWeights_rel (hk : 0 < k) {a a' b b' c c' p p' : Pt K} (ha : Q a a') (hb : Q b b') (hc : Q c c') (hp : Q p p') :
    triangleWeights ⟨a, b, c⟩ p = triangleWeights ⟨a', b', c'⟩ p' := by
  have hkk : 0 < k * k := mul_pos hk hk
  unfold triangleWeights fdiv
  simp only
  rw [uniform_vector ha hb, uniform_vector ha hc, uniform_vector ha hp]
  simp only [uniform_cross, fabs_mul_pos hkk, beq_zero_mul hkk.ne']
  have e : ∀ A B : K, 1 / (k * k * A) * (k * k * B) = 1 / A * B := by
    intro A B
    rw [div_mul_eq_mul_div, div_mul_eq_mul_div, one_mul, one_mul, mul_div_mul_left _ _ hkk.ne']
  split
  · rfl
  · simp only [ok_bind, e]

theorem asTriangle_rel {vs vs' : List (Pt K)} (hv : List.Forall₂ Q vs vs') (face : List Int) :
    RelM (fun t t' => Q t.a t'.a ∧ Q t.b t'.b ∧ Q t.c t'.c) (asTriangle vs face) (asTriangle vs' face) := by
  unfold asTriangle
  refine (RelM.of_eq rfl).bind fun i i' hi => ?_
  subst hi
  refine (rdI_rel hv i).bind fun a a' ha => ?_
  refine (RelM.of_eq rfl).bind fun i i' hi => ?_
  subst hi
  refine (rdI_rel hv i).bind fun b b' hb => ?_
  refine (RelM.of_eq rfl).bind fun i i' hi => ?_
  subst hi
  refine (rdI_rel hv i).bind fun c c' hc => ?_
  exact ⟨ha, hb, hc⟩

theorem barycentricTriangleWeights_rel (hk : 0 < k) {points points' vs vs' : List (Pt K)} (hp : List.Forall₂ Q points points')
    (hv : List.Forall₂ Q vs vs') (f : List Int) (faces : List (List Int)) (sched : List Nat) :
    barycentricTriangleWeights points f faces vs sched = barycentricTriangleWeights points' f faces vs' sched := by
  unfold barycentricTriangleWeights
  rw [hp.length_eq]
  congr 1
  funext i
  refine ((RelM.of_eq (x := rd f i) rfl).bind (T := Eq) fun j j' hj => ?_).eq
  subst hj
  split
  · exact rfl
  · refine (RelM.of_eq rfl).bind fun r r' hr => ?_
    subst hr
    refine (asTriangle_rel hv r).bind fun t t' ht => ?_
    refine (rd_rel hp i).bind fun p p' hpp => ?_
    exact RelM.of_eq (triangleWeights_rel hk ht.1 ht.2.1 ht.2.2 hpp)

theorem interpEdgeCase_rel (hk : 0 < k) (hsqrt : ∀ x, env.sqrt (k * k * x) = k * env.sqrt x) {a a' p p' : Pt K} (ha : Q a a') (hp : Q p p')
    (m : Nat) (U : Pt K) (i j : Nat) :
    interpEdgeCase env m a U p i j = interpEdgeCase env m a' ⟨k * U.x, k * U.y⟩ p' i j := by
  unfold interpEdgeCase fdiv
  simp only
  rw [uniform_vector ha hp, uniform_dot, uniform_dot, hsqrt, hsqrt, beq_zero_mul hk.ne', mul_div_mul_left _ _ hk.ne']

/-- Related rows of weights while they are normalised: the first `d` are done. Beyond `n` they are zero. -/
structure RowRel (c : K) (d n : Nat) (w w' : List K) : Prop where
  length : w.length = w'.length
  done : ∀ j, j < d → w'[j]? = w[j]?
  todo : ∀ j, d ≤ j → w'[j]? = w[j]?.map (c * ·)
  zero : ∀ j, n ≤ j → ∀ x, w[j]? = some x → x = 0

theorem wr_eq_ok' {α : Type} {l : List α} {i : Nat} {a : α} (h : i < l.length) : wr l i a = .ok (l.set i a) := by
  unfold wr; rw [if_pos h]

theorem RowRel.wr {c : K} {n i : Nat} {w w' : List K} (h : RowRel c 0 n w w') (hi : i < n) (x : K) :
    RelM (RowRel c 0 n) (Celltree.wr w i x) (Celltree.wr w' i (c * x)) := by
  unfold Celltree.wr
  rw [← h.length]
  split
  · next hl =>
    have hl' : i < w'.length := h.length ▸ hl
    refine ⟨by rw [List.length_set, List.length_set, h.length], nofun, fun j _ => ?_, fun j hj y hy => ?_⟩
    · rw [List.getElem?_set, List.getElem?_set]
      split
      · next e =>
        subst e
        rfl
      · exact h.todo j (Nat.zero_le _)
    · rw [List.getElem?_set_ne (by omega)] at hy
      exact h.zero j hj y hy
  · exact rfl

theorem wachspressLoop_rel (hk : 0 < k) (hsqrt : ∀ x, env.sqrt (k * k * x) = k * env.sqrt x) {tol : K} {polygon polygon' : List (Pt K)}
    (hpoly : List.Forall₂ Q polygon polygon') {p p' : Pt K} (hp : Q p p') (m n i : Nat) (hi : i + n ≤ polygon.length) {a a' b b' : Pt K}
    (ha : Q a a') (hb : Q b b') (U : Pt K) (Ai : K) {w w' : List K} (hw : RowRel (k * k)⁻¹ 0 polygon.length w w') (s : K) :
    RelM (SumRel Eq fun r r' => RowRel (k * k)⁻¹ 0 polygon.length r.1 r'.1 ∧ r'.2 = (k * k)⁻¹ * r.2)
      (wachspressLoop env polygon p tol m n i a b U Ai w s)
      (wachspressLoop env polygon' p' (k * tol) m n i a' b' ⟨k * U.x, k * U.y⟩ (k * k * Ai) w' ((k * k)⁻¹ * s)) := by
  have hkk : 0 < k * k := mul_pos hk hk
  induction n generalizing i a a' b b' U Ai w w' s with
  | zero => exact ⟨hw, rfl⟩
  | succ n ih =>
    unfold wachspressLoop
    rw [← hpoly.length_eq]
    refine (rd_rel hpoly _).bind fun c c' hc => ?_
    simp only
    rw [uniform_vector ha hc, uniform_vector hb hc, uniform_vector hb hp, uniform_cross, uniform_cross, fabs_mul_pos hkk, fabs_mul_pos hkk,
      uniform_within hk]
    split
    · rw [interpEdgeCase_rel hk hsqrt hb hp]
      exact (RelM.of_eq rfl).bind fun r r' hr => hr
    · have hd : RelM (fun q q' => q' = (k * k)⁻¹ * q)
          (fdiv ((1 + 1) * fabs (cross U (toVector a c))) (Ai * fabs (cross (toVector b c) (toVector b p))))
          (fdiv ((1 + 1) * (k * k * fabs (cross U (toVector a c)))) (k * k * Ai * (k * k * fabs (cross (toVector b c) (toVector b p))))) := by
        unfold fdiv
        rw [show k * k * Ai * (k * k * fabs (cross (toVector b c) (toVector b p))) =
          k * k * (k * k) * (Ai * fabs (cross (toVector b c) (toVector b p))) by ring, beq_zero_mul (mul_pos hkk hkk).ne']
        split
        · exact rfl
        · show _ = _
          rw [mul_left_comm, mul_assoc (k * k) (k * k), mul_div_mul_left _ _ hkk.ne', div_mul_eq_div_div, inv_mul_eq_div, div_div,
            div_div, mul_comm (k * k)]
      refine hd.bind fun q q' hq => ?_
      subst hq
      refine (hw.wr (by omega) q).bind fun v v' hv => ?_
      rw [← mul_add]
      exact ih (i + 1) (by omega) hb hc _ _ hv _

theorem normalize_rel {c : K} (hc : 0 < c) {n : Nat} (s : K) (l i : Nat) {w w' : List K} (h : RowRel c i n w w') (hl : i + l = n) :
    RelM (RowRel c n n) ((List.range' i l).foldlM (fun (ws : List K) (j : Nat) => do Celltree.wr ws j (← fdiv (← rd ws j) s)) w)
      ((List.range' i l).foldlM (fun (ws : List K) (j : Nat) => do Celltree.wr ws j (← fdiv (← rd ws j) (c * s))) w') := by
  induction l generalizing i w w' with
  | zero =>
    obtain rfl : i = n := hl
    exact h
  | succ l ih =>
    rw [List.range'_succ, List.foldlM_cons, List.foldlM_cons]
    have step : RelM (RowRel c (i + 1) n) (do Celltree.wr w i (← fdiv (← rd w i) s)) (do Celltree.wr w' i (← fdiv (← rd w' i) (c * s))) := by
      by_cases hi : i < w.length
      · have hi' : i < w'.length := h.length ▸ hi
        have e := h.todo i le_rfl
        rw [List.getElem?_eq_getElem hi', List.getElem?_eq_getElem hi] at e
        have e : w'[i] = c * w[i] := Option.some.inj e
        rw [rd_of_lt hi, rd_of_lt hi', ok_bind, ok_bind, e]
        unfold fdiv
        rw [beq_zero_mul hc.ne', mul_div_mul_left _ _ hc.ne']
        split
        · exact rfl
        · rw [ok_bind, ok_bind, wr_eq_ok' hi, wr_eq_ok' hi']
          refine ⟨by rw [List.length_set, List.length_set, h.length], fun j hj => ?_, fun j hj => ?_, fun j hj y hy => ?_⟩
          · rw [List.getElem?_set, List.getElem?_set]
            split
            · rfl
            · exact h.done j (by omega)
          · rw [List.getElem?_set_ne (by omega), List.getElem?_set_ne (by omega)]
            exact h.todo j (by omega)
          · rw [List.getElem?_set_ne (by omega)] at hy
            exact h.zero j hj y hy
      · have e1 : rd w i = .error .oob := by
          unfold rd; rw [List.getElem?_eq_none (by omega)]
        have e2 : rd w' i = .error .oob := by
          unfold rd; rw [List.getElem?_eq_none (by rw [← h.length]; omega)]
        rw [e1, e2]
        exact rfl
    exact step.bind fun v v' hv => ih (i + 1) hv (by omega)

theorem RowRel.eq {c : K} {n : Nat} {w w' : List K} (h : RowRel c n n w w') : w' = w := by
  apply List.ext_getElem?
  intro j
  by_cases hj : j < n
  · exact h.done j hj
  · have hj : n ≤ j := by omega
    rw [h.todo j hj]
    match e : w[j]? with
    | none => rfl
    | some x =>
      rw [h.zero j hj x e]
      simp

theorem wachspressWeights_rel (hk : 0 < k) (hsqrt : ∀ x, env.sqrt (k * k * x) = k * env.sqrt x) {tol : K} {polygon polygon' : List (Pt K)}
    (hpoly : List.Forall₂ Q polygon polygon') {p p' : Pt K} (hp : Q p p') (m : Nat) :
    wachspressWeights env polygon p m tol = wachspressWeights env polygon' p' m (k * tol) := by
  have hkk : 0 < k * k := mul_pos hk hk
  unfold wachspressWeights
  refine RelM.eq ?_
  simp only
  rw [← hpoly.length_eq]
  refine (rdI_rel hpoly (-1)).bind fun a a' ha => ?_
  refine (rd_rel hpoly 0).bind fun b b' hb => ?_
  rw [uniform_vector ha hb, uniform_vector ha hp, uniform_cross, fabs_mul_pos hkk, uniform_within hk]
  split
  · exact RelM.of_eq (interpEdgeCase_rel hk hsqrt ha hp _ _ _ _)
  · have h0 : RowRel (k * k)⁻¹ 0 polygon.length (List.replicate m (0 : K)) (List.replicate m 0) := by
      refine ⟨rfl, nofun, fun j _ => ?_, fun j _ x hx => ?_⟩
      · rw [List.getElem?_replicate]
        split
        · simp
        · rfl
      · exact List.eq_of_mem_replicate (List.mem_of_getElem? hx)
    have hl := wachspressLoop_rel hk hsqrt (tol := tol) hpoly hp m polygon.length 0 (by omega) ha hb (toVector a b)
      (fabs (cross (toVector a b) (toVector a p))) h0 0
    rw [mul_zero] at hl
    refine hl.bind fun r r' hr => ?_
    match r, r', hr with
    | .inl r, .inl r', hr => exact hr
    | .inr (w, s), .inr (w', s'), ⟨h1, h2⟩ =>
      simp only at h1 h2 ⊢
      subst h2
      unfold normalizeWeights
      rw [List.range_eq_range']
      exact (normalize_rel (inv_pos.2 hkk) s polygon.length 0 h1 (Nat.zero_add _)).mono fun v v' hv => hv.eq.symm

theorem barycentricWachspressWeights_rel (hk : 0 < k) (hsqrt : ∀ x, env.sqrt (k * k * x) = k * env.sqrt x) {tol : K}
    {points points' vs vs' : List (Pt K)} (hp : List.Forall₂ Q points points') (hv : List.Forall₂ Q vs vs') (f : List Int)
    (faces : List (List Int)) (m : Nat) (sched : List Nat) :
    barycentricWachspressWeights env points f faces m vs tol sched =
      barycentricWachspressWeights env points' f faces m vs' (k * tol) sched := by
  unfold barycentricWachspressWeights
  rw [hp.length_eq]
  congr 1
  funext i
  refine ((RelM.of_eq (x := rd f i) rfl).bind (T := Eq) fun j j' hj => ?_).eq
  subst hj
  split
  · exact rfl
  · refine (RelM.of_eq rfl).bind fun r r' hr => ?_
    subst hr
    refine (copyVertices_rel hv r).bind fun t t' ht => ?_
    refine (rd_rel hp i).bind fun p p' hpp => ?_
    exact RelM.of_eq (wachspressWeights_rel hk hsqrt ht hpp m)

end

end Celltree
