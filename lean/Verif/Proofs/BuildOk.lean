import Verif.Proofs.LocatePoints
import Verif.Proofs.EdgeTree

/-!
# Construction does not fail in exact arithmetic if all boxes have positive width and height
-/

set_option linter.unusedSectionVars false

namespace Celltree

variable {K : Type} [Field K] [LinearOrder K] [IsStrictOrderedRing K]

/-- Consecutive intervals of length `l` starting at `r`: a number in their union is in one of them. -/
theorem exists_interval (n : Nat) (l r c : K) (h1 : r ≤ c) (h2 : c < (n : K) * l + r) :
    ∃ i < n, (i : K) * l + r ≤ c ∧ c < ((i + 1 : Nat) : K) * l + r := by
  induction n with
  | zero => simp at h2; exact absurd h1 (not_le.2 h2)
  | succ n ih =>
    by_cases h : c < (n : K) * l + r
    · obtain ⟨i, hi, h3⟩ := ih h
      exact ⟨i, by omega, h3⟩
    · exact ⟨n, by omega, not_lt.1 h, h2⟩

theorem rangeOf_spec (P : BuildParams K) (dim : Bool) (cells : List Nat) :
    P.env.floatMin ≤ (rangeOf P dim cells).2 ∧ (rangeOf P dim cells).1 ≤ P.env.floatMax ∧
    AllLoGe P.coords dim cells (rangeOf P dim cells).1 ∧ AllHiLe P.coords dim cells (rangeOf P dim cells).2 := by
  obtain ⟨_, _, h1, h2, h3, h4⟩ := boundsFold_valid P.coords dim cells P.env.floatMax P.env.floatMin trivial trivial
    (fun _ _ => ⟨trivial, trivial⟩)
  exact ⟨h2, h1, h3, h4⟩

theorem not_buildErr {P : BuildParams K} (hb : 0 < P.nBuckets) (hpos : ∀ b ∈ P.coords, ∀ dim, b.lo dim < b.hi dim)
    (hmax : (P.nBuckets : K) * (P.coords.length : K) < P.env.floatMax) {e : Err} : ¬ BuildErr P e := by
  have hbK : (0 : K) < (P.nBuckets : K) := by exact_mod_cast hb
  have hlen : ∀ (dim : Bool) (cells : List Nat), (∀ i ∈ cells, i < P.coords.length) → cells ≠ [] →
      0 < bucketLen P dim cells := by
    intro dim cells hin hne
    obtain ⟨j, hj⟩ := List.exists_mem_of_ne_nil _ hne
    obtain ⟨_, _, h3, h4⟩ := rangeOf_spec P dim cells
    have hjl := hin j hj
    have hg := List.getElem?_eq_getElem hjl
    have a1 := h3 j hj _ hg
    have a2 := h4 j hj _ hg
    have a3 := hpos _ (List.getElem_mem hjl) dim
    unfold bucketLen
    rw [Int.cast_natCast]
    apply div_pos _ hbK
    linarith
  have hmul : ∀ (dim : Bool) (cells : List Nat),
      (P.nBuckets : K) * bucketLen P dim cells = (rangeOf P dim cells).2 - (rangeOf P dim cells).1 := by
    intro dim cells
    unfold bucketLen
    rw [Int.cast_natCast, mul_div_cancel₀ _ (ne_of_gt hbK)]
  intro h
  cases h with
  | bucketsZero h =>
    rw [beq_iff_eq, Int.cast_natCast] at h
    exact (ne_of_gt hbK) h
  | noBuckets h => omega
  | lengthZero dim cells hin hne h =>
    rw [beq_iff_eq] at h
    exact (ne_of_gt (hlen dim cells hin hne)) h
  | noBucket dim cells j hin hj hno =>
    obtain ⟨_, _, h3, h4⟩ := rangeOf_spec P dim cells
    have hjl := hin j hj
    have hg := List.getElem?_eq_getElem hjl
    have a1 := h3 j hj _ hg
    have a2 := h4 j hj _ hg
    have a3 := hpos _ (List.getElem_mem hjl) dim
    have hc : (P.coords[j]).lo dim + half * ((P.coords[j]).hi dim - (P.coords[j]).lo dim) =
        ((P.coords[j]).lo dim + (P.coords[j]).hi dim) / 2 := by
      unfold half; ring
    obtain ⟨i, hi, h5, h6⟩ := exists_interval P.nBuckets (bucketLen P dim cells) (rangeOf P dim cells).1
      (((P.coords[j]).lo dim + (P.coords[j]).hi dim) / 2) (by linarith) (by rw [hmul]; linarith)
    refine hno i hi ⟨_, hg, ?_, ?_⟩
    · rw [hc, Int.cast_natCast]; exact h5
    · rw [hc, Int.cast_natCast]; exact h6
  | noPlane dim cells left right m hin hle hl hr hsl hsr hm h =>
    apply h
    have hne : cells ≠ [] := by
      obtain ⟨j, hj⟩ := List.exists_mem_of_ne_nil _ hl
      exact List.ne_nil_of_mem (hsl j hj)
    have hbl := hlen dim cells hin hne
    obtain ⟨h1, h2, h3, h4⟩ := rangeOf_spec P dim cells
    have b1 : (rangeOf P dim left).2 ≤ (rangeOf P dim cells).2 :=
      (boundsFold_tight P.coords dim left P.env.floatMax P.env.floatMin).1 _ h1 fun i hi => h4 i (hsl i hi)
    have b2 : (rangeOf P dim cells).1 ≤ (rangeOf P dim right).1 :=
      (boundsFold_tight P.coords dim right P.env.floatMax P.env.floatMin).2 _ h2 fun i hi => h3 i (hsr i hi)
    have c1 : ((rangeOf P dim left).2 - (rangeOf P dim cells).1) / bucketLen P dim cells ≤ (P.nBuckets : K) := by
      rw [div_le_iff₀ hbl, hmul]; linarith
    have c2 : ((rangeOf P dim cells).2 - (rangeOf P dim right).1) / bucketLen P dim cells ≤ (P.nBuckets : K) := by
      rw [div_le_iff₀ hbl, hmul]; linarith
    have d1 : (0 : K) ≤ (m : K) := by exact_mod_cast Nat.zero_le m
    have d2 : (m : K) ≤ (cells.length : K) := by exact_mod_cast hm
    have d3 : (cells.length : K) ≤ (P.coords.length : K) := by exact_mod_cast hle
    have e1 := mul_le_mul_of_nonneg_right c1 d1
    have e2 := mul_le_mul_of_nonneg_right c2 (sub_nonneg.2 d2)
    have e3 := mul_le_mul_of_nonneg_left d3 hbK.le
    push_cast
    refine lt_of_le_of_lt (add_le_add e1 e2) ?_
    linarith

end Celltree
