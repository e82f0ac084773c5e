import Verif.Model.Demo
import Verif.Proofs.Init
import Mathlib.Analysis.SpecialFunctions.Trigonometric.Basic
import Mathlib.Analysis.SpecialFunctions.Trigonometric.Angle
import Mathlib.Algebra.BigOperators.Group.List.Basic
import Mathlib.Tactic.FieldSimp
import Mathlib.Tactic.Linarith

/-!
# The points of `generate_disk`: C84

Real numbers.
-/

set_option linter.unusedSectionVars false

namespace Celltree

open Real

theorem cumsumFrom_append (acc : ℝ) (l l' : List ℝ) :
    cumsumFrom acc (l ++ l') = cumsumFrom acc l ++ cumsumFrom (acc + l.sum) l' := by
  induction l generalizing acc with
  | nil => simp [cumsumFrom]
  | cons x l ih => simp [cumsumFrom, ih, add_assoc]

theorem cumsumFrom_replicate (acc d : ℝ) (n : Nat) :
    cumsumFrom acc (List.replicate n d) = (List.range n).map fun j : Nat => acc + (j + 1) * d := by
  induction n generalizing acc with
  | zero => rfl
  | succ n ih =>
    rw [List.replicate_succ, cumsumFrom, ih, List.range_succ_eq_map, List.map_cons, List.map_map]
    congr 1
    · simp
    · refine List.map_congr_left fun j _ => ?_
      simp only [Function.comp, Nat.cast_succ]
      ring

/-- The increments of the angle, for given numbers of points per level. -/
noncomputable def deltas (ns : List Nat) : List ℝ := ns.flatMap fun n => List.replicate n (2 * π / n)

theorem npRepeat_self_map (ns : List Nat) (f : Nat → ℝ) :
    (npRepeat ns ns).map f = ns.flatMap fun n => List.replicate n (f n) := by
  unfold npRepeat
  induction ns with
  | nil => rfl
  | cons n ns ih => simp [ih]

/-- The position of the first point of every level. -/
def starts (s : Nat) : List Nat → List Nat
  | [] => []
  | n :: ns => s :: starts (s + n) ns

theorem starts_eq (s : Nat) (n : Nat) (ns : List Nat) : s :: (cumsumFrom s (n :: ns)).dropLast = starts s (n :: ns) := by
  induction ns generalizing s n with
  | nil => simp [cumsumFrom, starts]
  | cons m ns ih =>
    have := ih (s + n) m
    rw [starts, ← this]
    simp [cumsumFrom]

theorem mapM_of_ok {α β : Type} {g : α → M β} {f : α → β} (l : List α) (h : ∀ x ∈ l, g x = .ok (f x)) :
    l.mapM g = .ok (l.map f) := by
  induction l with
  | nil => rfl
  | cons a l ih =>
    rw [List.mapM_cons, h a (by simp), ok_bind, ih fun x hx => h x (by simp [hx]), ok_bind]
    rfl

theorem angles_eq (pre : List ℝ) (acc : ℝ) (ns : List Nat) :
    ((cumsumFrom acc (deltas ns)).zip (npRepeat (starts pre.length ns) ns)).mapM (fun (x : ℝ × Nat) => do
        let first ← rd (pre ++ cumsumFrom acc (deltas ns)) x.2
        (.ok (x.1 - first + 1 / (1 + 1) * π) : M ℝ)) =
      .ok (ns.flatMap fun n => (List.range n).map fun j : Nat => j * (2 * π / n) + 1 / 2 * π) := by
  induction ns generalizing pre acc with
  | nil => rfl
  | cons n ns ih =>
    have hd : deltas (n :: ns) = List.replicate n (2 * π / n) ++ deltas ns := by simp [deltas]
    have hr : npRepeat (starts pre.length (n :: ns)) (n :: ns) =
        List.replicate n pre.length ++ npRepeat (starts (pre.length + n) ns) ns := by simp [npRepeat, starts]
    rw [hd, hr, cumsumFrom_append, List.zip_append (by rw [cumsumFrom_replicate]; simp), List.mapM_append]
    have hlen : (pre ++ cumsumFrom acc (List.replicate n (2 * π / n))).length = pre.length + n := by
      rw [cumsumFrom_replicate]; simp
    have h2 := ih (pre ++ cumsumFrom acc (List.replicate n (2 * π / n))) (acc + (List.replicate n (2 * π / n)).sum)
    rw [hlen] at h2
    simp only [List.append_assoc] at h2
    have hz : (cumsumFrom acc (List.replicate n (2 * π / n))).zip (List.replicate n pre.length) =
        (List.range n).map fun j : Nat => (acc + (j + 1) * (2 * π / n), pre.length) := by
      rw [cumsumFrom_replicate]
      conv => lhs; rhs; rw [show n = (List.range n).length by simp, ← List.map_const']
      rw [List.zip_map']
    rw [mapM_of_ok (f := fun x => x.1 - (acc + 1 * (2 * π / n)) + 1 / 2 * π) _ ?_, ok_bind, h2, ok_bind, hz]
    · change Except.ok _ = _
      rw [List.map_map, List.flatMap_cons]
      congr 2
      refine List.map_congr_left fun j _ => ?_
      simp only [Function.comp]
      ring
    · intro x hx
      rw [hz] at hx
      obtain ⟨j, hj, rfl⟩ := List.mem_map.1 hx
      have hn : 0 < n := lt_of_le_of_lt (Nat.zero_le j) (List.mem_range.1 hj)
      have hf : (pre ++ (cumsumFrom acc (List.replicate n (2 * π / n)) ++
          cumsumFrom (acc + (List.replicate n (2 * π / n)).sum) (deltas ns)))[pre.length]? =
          some (acc + 1 * (2 * π / n)) := by
        rw [List.getElem?_append_right (le_refl _), Nat.sub_self, List.getElem?_append_left (by
          rw [cumsumFrom_replicate]; simpa using hn), cumsumFrom_replicate]
        simp [hn]
      simp only
      rw [rd_of_some hf, ok_bind]
      norm_num

/-- Point `j` on circle `k` of the disk. -/
noncomputable def diskPoint (partitions depth k j : Nat) : Pt ℝ :=
  ⟨cos (π / 2 + 2 * π * j / (partitions * k : Nat)) * (k / depth), sin (π / 2 + 2 * π * j / (partitions * k : Nat)) * (k / depth)⟩

theorem linspace01_eq (d : Nat) : (linspace01 (d + 1) : List ℝ) = (List.range (d + 1)).map fun k : Nat => (k : ℝ) / d := by
  unfold linspace01
  refine List.map_congr_left fun i hi => ?_
  have hi := List.mem_range.1 hi
  by_cases hd : d = 0
  · subst hd
    rw [if_neg (by omega), if_neg (by omega)]
    simp
  · have hd' : (d : ℝ) ≠ 0 := by exact_mod_cast hd
    split
    · rename_i h
      rw [show i = d by omega, div_self hd']
    · rw [if_pos (by omega)]
      push_cast
      rw [show (d : ℝ) + 1 - 1 = d by ring, mul_one_div]

theorem zip_flatMap {α β γ : Type} {f : γ → List α} {g : γ → List β} (l : List γ) (h : ∀ x ∈ l, (f x).length = (g x).length) :
    (l.flatMap f).zip (l.flatMap g) = l.flatMap fun x => (f x).zip (g x) := by
  induction l with
  | nil => rfl
  | cons x l ih =>
    rw [List.flatMap_cons, List.flatMap_cons, List.zip_append (h x (by simp)), ih fun y hy => h y (by simp [hy]), List.flatMap_cons]

/-- The number of points on circle `k`. -/
def diskCount (partitions k : Nat) : Nat := if k = 0 then 1 else partitions * k

/-- **C84** (real numbers): the vertices of the disk are its centre, and `partitions * k` points on the circle with radius
`k / depth`, at equal angles, beginning at the top. -/
theorem C84_disk_points {partitions depth : Nat} (h3 : 3 ≤ partitions) :
    generateDiskVertices π cos sin partitions depth =
      .ok ((List.range (depth + 1)).flatMap fun k => (List.range (diskCount partitions k)).map (diskPoint partitions depth k)) := by
  unfold generateDiskVertices
  rw [if_neg (by omega)]
  have hn : ((depth : Int) + 1).toNat = depth + 1 := by omega
  simp only [hn, Int.toNat_natCast]
  have hm : (List.range (depth + 1)).map (fun k : Nat => partitions * k) =
      0 :: (List.range depth).map (fun k : Nat => partitions * (k + 1)) := by
    rw [List.range_succ_eq_map, List.map_cons, List.map_map]; rfl
  have hc : 1 :: (List.range depth).map (fun k : Nat => partitions * (k + 1)) =
      (List.range (depth + 1)).map (diskCount partitions) := by
    rw [List.range_succ_eq_map, List.map_cons, List.map_map]; rfl
  rw [hm]
  simp only
  have hs : 0 :: (cumsumFrom 0 (1 :: (List.range depth).map (fun k : Nat => partitions * (k + 1)))).dropLast =
      starts 0 ((List.range (depth + 1)).map (diskCount partitions)) := by
    rw [starts_eq, hc]
  rw [hs, hc]
  have hd : (npRepeat ((List.range (depth + 1)).map (diskCount partitions)) ((List.range (depth + 1)).map (diskCount partitions))).map
      (fun k : Nat => (1 + 1) * π / ((k : Int) : ℝ)) = deltas ((List.range (depth + 1)).map (diskCount partitions)) := by
    rw [npRepeat_self_map]
    unfold deltas
    norm_num
  rw [hd]
  have ha := angles_eq [] 0 ((List.range (depth + 1)).map (diskCount partitions))
  simp only [List.length_nil, List.nil_append] at ha
  rw [ha, ok_bind, linspace01_eq]
  congr 1
  have hr : npRepeat ((List.range (depth + 1)).map fun k : Nat => (k : ℝ) / depth) ((List.range (depth + 1)).map (diskCount partitions)) =
      (List.range (depth + 1)).flatMap fun k => List.replicate (diskCount partitions k) ((k : ℝ) / depth) := by
    unfold npRepeat
    rw [List.zip_map', List.flatMap_map]
  rw [hr, List.flatMap_map, zip_flatMap _ (by simp), List.map_flatMap]
  refine List.flatMap_congr fun k hk => ?_
  have hz : ((List.range (diskCount partitions k)).map fun j : Nat => (j : ℝ) * (2 * π / (diskCount partitions k : Nat)) + 1 / 2 * π).zip
      (List.replicate (diskCount partitions k) ((k : ℝ) / depth)) =
      (List.range (diskCount partitions k)).map fun j : Nat =>
        ((j : ℝ) * (2 * π / (diskCount partitions k : Nat)) + 1 / 2 * π, (k : ℝ) / depth) := by
    conv => lhs; rhs; rw [show diskCount partitions k = (List.range (diskCount partitions k)).length by simp, ← List.map_const']
    rw [List.zip_map']
  rw [hz, List.map_map]
  refine List.map_congr_left fun j _ => ?_
  simp only [Function.comp, diskPoint]
  by_cases hk0 : k = 0
  · subst hk0; simp
  · have hang : (j : ℝ) * (2 * π / (diskCount partitions k : Nat)) + 1 / 2 * π = π / 2 + 2 * π * j / (partitions * k : Nat) := by
      rw [diskCount, if_neg hk0]; ring
    rw [hang]

/-- **C84**: fewer than three partitions are rejected with a ValueError; a negative depth gives an IndexError. -/
theorem C84_rejected {partitions depth : Int} :
    (partitions < 3 → generateDiskVertices π cos sin partitions depth = .error .valueError) ∧
    (3 ≤ partitions → depth < 0 → generateDiskVertices π cos sin partitions depth = .error .indexError) := by
  unfold generateDiskVertices
  constructor
  · intro h; rw [if_pos h]
  · intro h hd
    rw [if_neg (by omega), show (depth + 1).toNat = 0 by omega]
    rfl

/-- **C84** (real numbers): the number of vertices. -/
theorem C84_number_of_points {partitions depth : Nat} (h3 : 3 ≤ partitions) {verts : List (Pt ℝ)}
    (h : generateDiskVertices π cos sin partitions depth = .ok verts) :
    2 * verts.length = 2 + partitions * depth * (depth + 1) := by
  rw [C84_disk_points h3] at h
  cases h
  rw [List.length_flatMap]
  simp only [List.length_map, List.length_range]
  induction depth with
  | zero => simp [diskCount]
  | succ d ih =>
    rw [List.range_succ, List.map_append, List.sum_append, Nat.mul_add, ih]
    simp [diskCount]
    ring

theorem diskPoint_radius (partitions depth k j : Nat) :
    (diskPoint partitions depth k j).x ^ 2 + (diskPoint partitions depth k j).y ^ 2 = ((k : ℝ) / depth) ^ 2 := by
  unfold diskPoint
  simp only
  rw [mul_pow, mul_pow, ← add_mul, cos_sq_add_sin_sq, one_mul]

/-- **C84** (real numbers): all vertices are in the unit disk, and the last `partitions * depth` ones are on the unit circle. -/
theorem C84_in_unit_disk {partitions depth : Nat} (h3 : 3 ≤ partitions) {verts : List (Pt ℝ)}
    (h : generateDiskVertices π cos sin partitions depth = .ok verts) :
    (∀ p ∈ verts, p.x ^ 2 + p.y ^ 2 ≤ 1) ∧
      (0 < depth → ∃ rest outer, verts = rest ++ outer ∧ outer.length = partitions * depth ∧ ∀ p ∈ outer, p.x ^ 2 + p.y ^ 2 = 1) := by
  rw [C84_disk_points h3] at h
  cases h
  constructor
  · intro p hp
    obtain ⟨k, hk, hp⟩ := List.mem_flatMap.1 hp
    obtain ⟨j, _, rfl⟩ := List.mem_map.1 hp
    rw [diskPoint_radius]
    have hk := List.mem_range.1 hk
    have h1 : (k : ℝ) / depth ≤ 1 := div_le_one_of_le₀ (by exact_mod_cast Nat.lt_succ_iff.1 hk) (Nat.cast_nonneg _)
    have h0 : 0 ≤ (k : ℝ) / depth := by positivity
    nlinarith
  · intro hd
    refine ⟨_, (List.range (diskCount partitions depth)).map (diskPoint partitions depth depth), by
      rw [List.range_succ, List.flatMap_append, List.flatMap_cons, List.flatMap_nil, List.append_nil], ?_, ?_⟩
    · simp [diskCount, hd.ne']
    · intro p hp
      obtain ⟨j, _, rfl⟩ := List.mem_map.1 hp
      rw [diskPoint_radius, div_self (by exact_mod_cast hd.ne'), one_pow]

/-- **C84** (real numbers): no two vertices are equal. -/
theorem C84_distinct {partitions depth : Nat} (h3 : 3 ≤ partitions) {verts : List (Pt ℝ)}
    (h : generateDiskVertices π cos sin partitions depth = .ok verts) : verts.Nodup := by
  rw [C84_disk_points h3] at h
  cases h
  rw [List.nodup_flatMap]
  constructor
  · intro k hk
    have hk := List.mem_range.1 hk
    by_cases hk0 : k = 0
    · subst hk0; simp [diskCount]
    · have hd0 : depth ≠ 0 := by omega
      refine List.Nodup.map_on ?_ List.nodup_range
      intro i hi j hj he
      rw [List.mem_range, diskCount, if_neg hk0] at hi hj
      have hr : (0 : ℝ) < (k : ℝ) / depth := div_pos (by exact_mod_cast Nat.pos_of_ne_zero hk0) (by exact_mod_cast Nat.pos_of_ne_zero hd0)
      have hx := mul_right_cancel₀ hr.ne' (congrArg Pt.x he)
      have hy := mul_right_cancel₀ hr.ne' (congrArg Pt.y he)
      have hang := Real.Angle.cos_sin_inj hx hy
      obtain ⟨m, hm⟩ := Real.Angle.angle_eq_iff_two_pi_dvd_sub.1 hang
      have hc : (0 : ℝ) < (partitions * k : Nat) := by exact_mod_cast Nat.mul_pos (by omega) (Nat.pos_of_ne_zero hk0)
      have e : ((i : ℝ) - j) = m * (partitions * k : Nat) := by
        have h2 : 2 * π * ((i : ℝ) - j) / (partitions * k : Nat) = 2 * π * m := by rw [← hm]; ring
        rw [div_eq_iff hc.ne'] at h2
        have h3 : 2 * π * ((i : ℝ) - j) = 2 * π * (m * (partitions * k : Nat)) := by rw [h2]; ring
        exact mul_left_cancel₀ (by positivity) h3
      have e' : (i : Int) - j = m * (partitions * k : Nat) := by exact_mod_cast e
      have hm0 : m = 0 := by
        by_contra hne
        have : (1 : Int) ≤ |m| := Int.one_le_abs hne
        have h4 : |(i : Int) - j| = |m| * (partitions * k : Nat) := by rw [e', abs_mul, Nat.abs_cast]
        have h5 : |(i : Int) - j| < (partitions * k : Nat) := by rw [abs_lt]; omega
        nlinarith
      rw [hm0] at e'
      omega
  · refine List.Pairwise.imp_of_mem ?_ List.nodup_range
    intro k k' hk hk' hne
    simp only [Function.onFun]
    rw [List.disjoint_left]
    intro p h1 h2
    obtain ⟨i, _, rfl⟩ := List.mem_map.1 h1
    obtain ⟨j, _, he⟩ := List.mem_map.1 h2
    have h5 := diskPoint_radius partitions depth k i
    rw [← he, diskPoint_radius] at h5
    have hk := List.mem_range.1 hk
    have hk' := List.mem_range.1 hk'
    have hd : (0 : ℝ) < depth := by
      have : 0 < depth := by omega
      exact_mod_cast this
    have h6 := (pow_left_inj₀ (by positivity) (by positivity) (two_ne_zero)).1 h5
    rw [div_left_inj' hd.ne'] at h6
    exact hne (by exact_mod_cast h6.symm)

/-- Three partitions and one level: the centre and the corners of a triangle. -/
example : ∃ verts, generateDiskVertices π cos sin 3 1 = .ok verts ∧ verts.length = 4 ∧ verts.Nodup := by
  refine ⟨_, C84_disk_points (partitions := 3) (depth := 1) (le_refl _), ?_, C84_distinct (le_refl _) (C84_disk_points (le_refl _))⟩
  have := C84_number_of_points (partitions := 3) (depth := 1) (le_refl _) (C84_disk_points (le_refl _))
  omega

end Celltree
