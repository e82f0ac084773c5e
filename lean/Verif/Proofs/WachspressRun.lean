import Verif.Model.Algorithms
import Verif.Proofs.Core

/-!
# What `compute_weights` of Wachspress coordinates does, in any arithmetic

The areas, weights and sums are given as functions of the index.
-/

set_option linter.unusedSectionVars false

namespace Celltree

variable {F : Type} [Add F] [Sub F] [Mul F] [Div F] [Neg F] [Zero F] [One F] [IntCast F]
  [LT F] [LE F] [BEq F] [DecidableLT F] [DecidableLE F]

/-- The row with the weights of the first `i` columns. -/
def fRow (m : Nat) (f : Nat → F) (i : Nat) : List F := (List.range i).map f ++ List.replicate (m - i) 0

theorem fRow_length {m : Nat} (f : Nat → F) {i : Nat} (h : i ≤ m) : (fRow m f i).length = m := by
  simp [fRow]; omega

theorem fRow_set {m : Nat} (f : Nat → F) {i : Nat} (h : i < m) : (fRow m f i).set i (f i) = fRow m f (i + 1) := by
  unfold fRow
  rw [List.set_append_right _ _ (by simp), show m - i = (m - (i + 1)) + 1 from by omega, List.replicate_succ]
  simp [List.range_succ]

theorem fRow_get {m : Nat} (f : Nat → F) {i j : Nat} (hi : i ≤ m) (hj : j < m) :
    (fRow m f i)[j]? = some (if j < i then f j else 0) := by
  unfold fRow
  by_cases h : j < i
  · rw [List.getElem?_append_left (by simpa using h)]
    simp [h]
  · rw [List.getElem?_append_right (by simpa using h), if_neg h, List.getElem?_replicate, if_pos]
    rw [List.length_map, List.length_range]
    omega

theorem normalize_fRow {m n : Nat} (w f : Nat → F) (hn : n ≤ m) {S : F} (hS : ∀ i < n, fdiv (w i) S = .ok (f i)) :
    normalizeWeights n (fRow m w n) S = .ok (fRow m f n) := by
  unfold normalizeWeights
  have key : ∀ k ≤ n, (List.range k).foldlM (fun (ws : List F) (i : Nat) => do wr ws i (← fdiv (← rd ws i) S))
      (fRow m w n) = (.ok (fRow m (fun i => if i < k then f i else w i) n) : M (List F)) := by
    intro k hk
    induction k with
    | zero => simp; rfl
    | succ k ih =>
      rw [List.range_succ, List.foldlM_append, ih (by omega), ok_bind]
      simp only [List.foldlM_cons, List.foldlM_nil]
      rw [rd_of_some (fRow_get _ hn (by omega)), ok_bind]
      simp only [Nat.lt_irrefl, if_false, show k < n from by omega, if_true]
      rw [hS k (by omega), ok_bind, wr_of_lt (by rw [fRow_length _ hn]; omega), ok_bind]
      change Except.ok _ = _
      congr 1
      apply List.ext_getElem?
      intro j
      by_cases hj : j < m
      · rw [List.getElem?_set, fRow_get _ hn hj, fRow_get _ hn hj, fRow_length _ hn]
        by_cases hjk : k = j
        · subst hjk
          simp [hj, show k < n from by omega]
        · rw [if_neg hjk]
          by_cases h1 : j < n
          · simp only [h1, if_true]
            by_cases h2 : j < k
            · simp [h2, show j < k + 1 from by omega]
            · simp [h2, show ¬ j < k + 1 from by omega]
          · simp [h1]
      · rw [List.getElem?_eq_none (by rw [List.length_set, fRow_length _ hn]; omega),
          List.getElem?_eq_none (by rw [fRow_length _ hn]; omega)]
  rw [key n (Nat.le_refl _)]
  congr 1
  unfold fRow
  congr 1
  apply List.map_congr_left
  intro i hi
  simp [List.mem_range.1 hi]

/-- The numbers in a run of `compute_weights`: corner `pc (k + 1)` is corner `k` of the polygon, `A k` the area of side `k`,
`W k` the weight of corner `k` and `S k` the sum of the weights of the corners before `k`. -/
structure WRun (polygon : List (Pt F)) (p : Pt F) (tol : F) (pc : Nat → Pt F) (A W S : Nat → F) (near : Nat → Prop) : Prop where
  first : rdI polygon (-1) = .ok (pc 0)
  next : ∀ k, rd polygon (k % polygon.length) = .ok (pc (k + 1))
  area : ∀ k ≤ polygon.length, fabs (cross (toVector (pc k) (pc (k + 1))) (toVector (pc k) p)) = A k
  test : ∀ k ≤ polygon.length, withinPerpendicularDistance (A k) (toVector (pc k) (pc (k + 1))) tol = true ↔ near k
  weight : ∀ k < polygon.length, (∀ i ≤ k + 1, ¬ near i) →
    fdiv ((1 + 1) * fabs (cross (toVector (pc k) (pc (k + 1))) (toVector (pc k) (pc (k + 2))))) (A k * A (k + 1)) = .ok (W k)
  start : S 0 = 0
  sum : ∀ k < polygon.length, (∀ i ≤ k + 1, ¬ near i) → S k + W k = S (k + 1)

variable {polygon : List (Pt F)} {p : Pt F} {tol : F} {pc : Nat → Pt F} {A W S : Nat → F} {near : Nat → Prop}

theorem WRun.step (h : WRun polygon p tol pc A W S near) (env : Env F) {m : Nat} (hm : polygon.length ≤ m) {i k : Nat}
    (hk : i + (k + 1) = polygon.length) (hn : ∀ j ≤ i + 1, ¬ near j) :
    wachspressLoop env polygon p tol m (k + 1) i (pc i) (pc (i + 1)) (toVector (pc i) (pc (i + 1))) (A i) (fRow m W i) (S i) =
    wachspressLoop env polygon p tol m k (i + 1) (pc (i + 1)) (pc (i + 2)) (toVector (pc (i + 1)) (pc (i + 2))) (A (i + 1))
      (fRow m W (i + 1)) (S (i + 1)) := by
  rw [wachspressLoop]
  simp only
  rw [h.next, ok_bind]
  rw [show i + 1 + 1 = i + 2 from rfl, h.area (i + 1) (by omega), if_neg, h.weight i (by omega) hn, ok_bind,
    wr_of_lt (by rw [fRow_length _ (by omega)]; omega), ok_bind, fRow_set _ (by omega), h.sum i (by omega) hn]
  intro hc
  exact hn (i + 1) (Nat.le_refl _) ((h.test (i + 1) (by omega)).1 hc)

theorem WRun.far_loop (h : WRun polygon p tol pc A W S near) (env : Env F) {m : Nat} (hm : polygon.length ≤ m) (k i : Nat)
    (hk : i + k = polygon.length) (hn : ∀ j ≤ polygon.length, ¬ near j) :
    wachspressLoop env polygon p tol m k i (pc i) (pc (i + 1)) (toVector (pc i) (pc (i + 1))) (A i) (fRow m W i) (S i) =
    .ok (.inr (fRow m W polygon.length, S polygon.length)) := by
  induction k generalizing i with
  | zero =>
    obtain rfl : i = polygon.length := by omega
    rfl
  | succ k ih =>
    rw [h.step env hm hk (fun j hj => hn j (by omega))]
    exact ih (i + 1) (by omega)

theorem WRun.near_loop (h : WRun polygon p tol pc A W S near) (env : Env F) {m : Nat} (hm : polygon.length ≤ m) (k i : Nat)
    (hk : i + k = polygon.length) {j : Nat} (hij : i < j) (hj : j ≤ polygon.length) (hj' : near j) (hn : ∀ j' < j, ¬ near j') :
    wachspressLoop env polygon p tol m k i (pc i) (pc (i + 1)) (toVector (pc i) (pc (i + 1))) (A i) (fRow m W i) (S i) =
    (interpEdgeCase env m (pc j) (toVector (pc j) (pc (j + 1))) p (j - 1) (j % polygon.length) >>= fun r => .ok (.inl r)) := by
  induction k generalizing i with
  | zero => omega
  | succ k ih =>
    by_cases hij' : i + 1 = j
    · subst hij'
      rw [wachspressLoop]
      simp only
      rw [h.next, ok_bind]
      rw [show i + 1 + 1 = i + 2 from rfl, h.area (i + 1) (by omega), if_pos ((h.test (i + 1) (by omega)).2 hj')]
      rfl
    · rw [h.step env hm hk (fun j' hj' => hn j' (by omega))]
      exact ih (i + 1) (by omega) (by omega)

theorem WRun.begin (h : WRun polygon p tol pc A W S near) (env : Env F) (h0 : 0 < polygon.length) (m : Nat) (hn : ¬ near 0) :
    wachspressWeights env polygon p m tol =
      wachspressLoop env polygon p tol m polygon.length 0 (pc 0) (pc 1) (toVector (pc 0) (pc 1)) (A 0) (fRow m W 0) (S 0) >>= fun x =>
        match x with
        | .inl r => .ok r
        | .inr q => normalizeWeights polygon.length q.1 q.2 := by
  unfold wachspressWeights
  have e1 := h.next 0
  rw [Nat.zero_mod] at e1
  simp only [h.first, e1, ok_bind, Nat.zero_add]
  have e2 := h.area 0 (Nat.zero_le _)
  rw [Nat.zero_add] at e2
  have e3 := h.test 0 (Nat.zero_le _)
  rw [Nat.zero_add] at e3
  rw [e2, if_neg (fun hc => hn (e3.1 hc)), h.start]
  simp only [fRow, List.range_zero, List.map_nil, List.nil_append, Nat.sub_zero]
  change (_ >>= _) = (_ >>= _)
  congr 1
  funext x
  cases x <;> rfl

/-- No side is within the tolerance. -/
theorem WRun.far (h : WRun polygon p tol pc A W S near) (env : Env F) (h0 : 0 < polygon.length) {m : Nat} (hm : polygon.length ≤ m)
    (hn : ∀ j ≤ polygon.length, ¬ near j) {f : Nat → F} (hf : ∀ i < polygon.length, fdiv (W i) (S polygon.length) = .ok (f i)) :
    wachspressWeights env polygon p m tol = .ok (fRow m f polygon.length) := by
  rw [h.begin env h0 m (hn 0 (Nat.zero_le _)), h.far_loop env hm polygon.length 0 (by omega) hn, ok_bind]
  exact normalize_fRow W f hm hf

/-- Side `j` is the first one within the tolerance. -/
theorem WRun.near_side (h : WRun polygon p tol pc A W S near) (env : Env F) (h0 : 0 < polygon.length) {m : Nat}
    (hm : polygon.length ≤ m) {j : Nat} (hj : j ≤ polygon.length) (hj' : near j) (hn : ∀ j' < j, ¬ near j') :
    wachspressWeights env polygon p m tol = interpEdgeCase env m (pc j) (toVector (pc j) (pc (j + 1))) p
      ((j + polygon.length - 1) % polygon.length) (j % polygon.length) := by
  by_cases hj0 : j = 0
  · subst hj0
    unfold wachspressWeights
    have e1 := h.next 0
    rw [Nat.zero_mod] at e1
    have e2 := h.area 0 (Nat.zero_le _)
    have e3 := h.test 0 (Nat.zero_le _)
    rw [Nat.zero_add] at e1 e2 e3
    simp only [h.first, e1, ok_bind, Nat.zero_add, e2, if_pos (e3.2 hj')]
    rw [Nat.zero_mod, Nat.mod_eq_of_lt (by omega)]
  · rw [h.begin env h0 m (hn 0 (by omega)), h.near_loop env hm polygon.length 0 (by omega) (by omega) hj hj' hn]
    have : (j + polygon.length - 1) % polygon.length = j - 1 := by
      rw [show j + polygon.length - 1 = (j - 1) + polygon.length from by omega, Nat.add_mod_right, Nat.mod_eq_of_lt (by omega)]
    rw [this]
    cases interpEdgeCase env m (pc j) (toVector (pc j) (pc (j + 1))) p (j - 1) (j % polygon.length) <;> rfl

end Celltree
