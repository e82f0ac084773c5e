import Verif.Model.Creation
import Verif.Proofs.Core

/-!
# `stable_partition`
-/

namespace Celltree

variable {F : Type} [Add F] [Sub F] [Mul F] [Div F] [Zero F] [One F] [Neg F] [IntCast F]
  [LT F] [LE F] [BEq F] [DecidableLT F] [DecidableLE F]

/-- The predicate of the partition as a function of the cell. -/
def cellTest (coords : List (Box F)) (bucket : Bucket F) (dim : Bool) (i : Nat) : Bool :=
  match coords[i]? with
  | some b => centroidTest bucket b dim
  | none => false

/-- The part `[lo, hi)` of a list. -/
def seg {α : Type} (l : List α) (lo hi : Nat) : List α := (l.take hi).drop lo

theorem partitionFill_spec (coords : List (Box F)) (bucket : Bucket F) (dim : Bool) (rest : List Nat)
    (T mid Fs : List Nat) (hmid : mid.length = rest.length) (hin : ∀ i ∈ rest, i < coords.length) :
    partitionFill coords bucket dim rest (T ++ mid ++ Fs.reverse) T.length (-(Fs.length : Int) - 1) =
      .ok (T ++ rest.filter (cellTest coords bucket dim) ++
          (Fs ++ rest.filter fun i => !cellTest coords bucket dim i).reverse,
        T.length + (rest.filter (cellTest coords bucket dim)).length,
        -((Fs.length + (rest.filter fun i => !cellTest coords bucket dim i).length : Nat) : Int) - 1) := by
  induction rest generalizing T mid Fs with
  | nil =>
    have : mid = [] := List.length_eq_zero_iff.1 hmid
    simp [partitionFill, this]
  | cons i rest ih =>
    have hi : i < coords.length := hin i (by simp)
    have hrest : ∀ j ∈ rest, j < coords.length := fun j hj => hin j (by simp [hj])
    simp only [partitionFill, rd_of_lt hi, ok_bind]
    have htest : cellTest coords bucket dim i = centroidTest bucket coords[i] dim := by
      simp [cellTest, hi]
    by_cases ht : centroidTest bucket coords[i] dim = true
    · obtain ⟨m, mid', rfl⟩ : ∃ m mid', mid = m :: mid' := by
        cases mid with
        | nil => simp at hmid
        | cons m mid' => exact ⟨m, mid', rfl⟩
      have hlen : T.length < (T ++ m :: mid' ++ Fs.reverse).length := by simp
      simp only [ht, if_true, wr_of_lt hlen, ok_bind]
      have hset : (T ++ m :: mid' ++ Fs.reverse).set T.length i = (T ++ [i]) ++ mid' ++ Fs.reverse := by
        simp
      have := ih (T ++ [i]) mid' Fs (by simpa using hmid) hrest
      simp only [List.length_append, List.length_singleton] at this
      rw [hset, this]
      simp [htest, ht]
      omega
    · obtain ⟨mid', m, rfl⟩ : ∃ mid' m, mid = mid' ++ [m] := by
        have : mid ≠ [] := by intro h; simp [h] at hmid
        exact ⟨mid.dropLast, mid.getLast this, (List.dropLast_concat_getLast this).symm⟩
      have hlen : Fs.length < (T ++ (mid' ++ [m]) ++ Fs.reverse).length := by
        simp only [List.length_append, List.length_singleton, List.length_reverse]; omega
      have hpos : (T ++ (mid' ++ [m]) ++ Fs.reverse).length - 1 - Fs.length = T.length + mid'.length := by
        simp; omega
      have hlt : T.length + mid'.length < (T ++ (mid' ++ [m]) ++ Fs.reverse).length := by
        simp only [List.length_append, List.length_singleton, List.length_reverse]; omega
      simp only [ht, Bool.false_eq_true, if_false]
      rw [wrI_neg hlen, hpos, wr_of_lt hlt]
      have hset : (T ++ (mid' ++ [m]) ++ Fs.reverse).set (T.length + mid'.length) i =
          T ++ mid' ++ (Fs ++ [i]).reverse := by
        have : (T ++ (mid' ++ [m]) ++ Fs.reverse) = (T ++ mid') ++ (m :: Fs.reverse) := by simp
        rw [this, ← List.length_append, List.set_append]
        simp
      have := ih T mid' (Fs ++ [i]) (by simpa using hmid) hrest
      simp only [List.length_append, List.length_singleton] at this
      have hcf : -(Fs.length : Int) - 1 - 1 = -((Fs.length + 1 : Nat) : Int) - 1 := by omega
      rw [ok_bind, hset, hcf, this]
      simp [htest, ht]
      omega

theorem writeRange {α : Type} (start : Nat) (l a : List α) (h : start + l.length ≤ a.length) (src : Nat → M α)
    (hsrc : ∀ i (hi : i < l.length), src i = .ok l[i]) (k : Nat) (hk : k ≤ l.length) :
    (List.range k).foldlM (fun (a : List α) (i : Nat) => do wr a (start + i) (← src i)) a =
      .ok (a.take start ++ l.take k ++ a.drop (start + k)) := by
  induction k with
  | zero => simp; rfl
  | succ k ih =>
    have hlt : k < l.length := by omega
    rw [List.range_succ, List.foldlM_append, ih (by omega)]
    simp only [ok_bind, List.foldlM_cons, List.foldlM_nil, hsrc k hlt]
    have hl1 : (a.take start).length = start := by simp; omega
    have hlen : start + k < (a.take start ++ l.take k ++ a.drop (start + k)).length := by
      simp; omega
    rw [wr_of_lt hlen]
    simp only [ok_bind]
    show Except.ok _ = Except.ok _
    congr 1
    have hd : a.drop (start + k) = a[start + k] :: a.drop (start + (k + 1)) := by
      rw [List.drop_eq_getElem_cons (by omega)]; rfl
    have hp : start + k = (a.take start ++ l.take k).length := by simp; omega
    have ht : l.take (k + 1) = l.take k ++ [l[k]] := by
      rw [List.take_add_one]; simp [hlt]
    rw [hd, ht]
    conv => lhs; arg 2; rw [hp]
    rw [List.set_append]
    simp only [Nat.lt_irrefl, if_false, Nat.sub_self, List.set_cons_zero, List.append_assoc, List.singleton_append]

theorem seg_length {α : Type} {l : List α} {lo hi : Nat} (h : hi ≤ l.length) : (seg l lo hi).length = hi - lo := by
  simp [seg]; omega

theorem take_seg_drop {α : Type} (l : List α) {lo hi : Nat} (h : lo ≤ hi) :
    l.take lo ++ seg l lo hi ++ l.drop hi = l := by
  have : l.take lo ++ seg l lo hi = l.take hi := by
    have h1 : l.take lo = (l.take hi).take lo := by rw [List.take_take, Nat.min_eq_left h]
    rw [h1, seg, List.take_append_drop]
  rw [this, List.take_append_drop]

/-- `stable_partition` does what its name says. -/
theorem stablePartition_spec (idx : List Nat) (coords : List (Box F)) (lo hi : Nat) (bucket : Bucket F) (dim : Bool)
    (hlo : lo ≤ hi) (hhi : hi ≤ idx.length) (hin : ∀ i ∈ seg idx lo hi, i < coords.length) :
    stablePartition idx coords lo hi bucket dim =
      .ok (idx.take lo ++ ((seg idx lo hi).filter (cellTest coords bucket dim) ++
            (seg idx lo hi).filter fun i => !cellTest coords bucket dim i) ++ idx.drop hi,
          lo + ((seg idx lo hi).filter (cellTest coords bucket dim)).length) := by
  have hN : (seg idx lo hi).length = hi - lo := seg_length hhi
  have h1 := partitionFill_spec coords bucket dim (seg idx lo hi) [] (List.replicate (hi - lo) 0) []
    (by simp [hN]) hin
  simp only [List.nil_append, List.reverse_nil, List.append_nil, List.length_nil, Int.natCast_zero, Int.neg_zero,
    Int.zero_sub, Nat.zero_add] at h1
  have hsum : ((seg idx lo hi).filter (cellTest coords bucket dim)).length +
      ((seg idx lo hi).filter fun i => !cellTest coords bucket dim i).length = hi - lo := by
    rw [← hN]
    generalize seg idx lo hi = l
    induction l with
    | nil => rfl
    | cons x l ih =>
      by_cases hx : cellTest coords bucket dim x = true <;> simp [hx] at * <;> omega
  unfold stablePartition
  change (partitionFill coords bucket dim (seg idx lo hi) _ 0 (-1) >>= _) = _
  rw [h1]
  generalize (seg idx lo hi).filter (cellTest coords bucket dim) = T at *
  generalize ((seg idx lo hi).filter fun i => !cellTest coords bucket dim i) = Fs at *
  simp only [ok_bind]
  rw [writeRange lo T idx (by omega) (fun i => rd (T ++ Fs.reverse) i) (fun i hi => by
    rw [rd_of_lt (by simp; omega)]; simp [hi]) T.length (Nat.le_refl _)]
  simp only [ok_bind, List.take_length]
  have hk : (-1 - (-((Fs.length : Nat) : Int) - 1)).toNat = Fs.length := by omega
  have hlen2 : (idx.take lo ++ T ++ idx.drop (lo + T.length)).length = idx.length := by simp; omega
  rw [hk, writeRange (lo + T.length) Fs (idx.take lo ++ T ++ idx.drop (lo + T.length)) (by rw [hlen2]; omega)
    (fun i => rdI (T ++ Fs.reverse) (-(i : Int) - 1)) (fun i hi => by
      rw [rdI_neg (by simp; omega), rd_of_lt (by simp; omega)]
      congr 1
      rw [List.getElem_append_right (by simp; omega)]
      simp only [List.getElem_reverse, List.length_append, List.length_reverse]
      congr 1
      omega) Fs.length (Nat.le_refl _)]
  simp only [ok_bind, List.take_length]
  have e1 : (idx.take lo ++ T).length = lo + T.length := by simp; omega
  have e2 : (idx.take lo ++ T ++ idx.drop (lo + T.length)).take (lo + T.length) = idx.take lo ++ T := by
    rw [← e1, List.take_left]
  have e3 : (idx.take lo ++ T ++ idx.drop (lo + T.length)).drop (lo + T.length + Fs.length) = idx.drop hi := by
    rw [← List.drop_drop]
    conv => lhs; arg 2; rw [← e1, List.drop_left]
    rw [List.drop_drop]
    congr 1
    omega
  rw [e2, e3]
  simp

end Celltree
