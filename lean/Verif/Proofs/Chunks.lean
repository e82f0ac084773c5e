import Verif.Model.Query
import Verif.Proofs.Core

/-!
# Chunks, parallel loops, concatenation
-/

set_option linter.unusedSectionVars false

namespace Celltree

/-! ## `prange` -/

theorem foldlM_wr {β : Type} (sched : List Nat) (res : List β) (body : Nat → M β) (f : Nat → β)
    (hb : ∀ i ∈ sched, body i = .ok (f i)) (hlt : ∀ i ∈ sched, i < res.length) :
    ∃ res', sched.foldlM (fun res i => do wr res i (← body i)) res = .ok res' ∧ res'.length = res.length ∧
      ∀ i, res'[i]? = if i ∈ sched then some (f i) else res[i]? := by
  induction sched generalizing res with
  | nil => exact ⟨res, rfl, rfl, by simp⟩
  | cons k sched ih =>
    have hk := hlt k (by simp)
    rw [List.foldlM_cons, hb k (by simp), ok_bind, wr_of_lt hk, ok_bind]
    obtain ⟨res', h1, h2, h3⟩ := ih (res.set k (f k)) (fun i hi => hb i (by simp [hi]))
      (fun i hi => by rw [List.length_set]; exact hlt i (by simp [hi]))
    refine ⟨res', h1, by simpa using h2, ?_⟩
    intro i
    rw [h3 i]
    by_cases hi : i ∈ sched
    · simp [hi]
    · by_cases hik : i = k
      · subst hik; simp [hi, hk]
      · simp [hi, hik, List.getElem?_set_ne (Ne.symm hik)]

theorem prange_ok {β : Type} {sched : List Nat} {n : Nat} (hs : sched.Perm (List.range n)) (init : β)
    {body : Nat → M β} {f : Nat → β} (hb : ∀ i < n, body i = .ok (f i)) :
    prange sched n init body = .ok ((List.range n).map f) := by
  unfold prange
  have hmem : ∀ i, i ∈ sched ↔ i < n := fun i => by rw [hs.mem_iff, List.mem_range]
  obtain ⟨res', h1, h2, h3⟩ := foldlM_wr sched (List.replicate n init) body f (fun i hi => hb i ((hmem i).1 hi))
    (fun i hi => by simpa using (hmem i).1 hi)
  rw [h1]
  congr 1
  apply List.ext_getElem?
  intro i
  rw [h3 i]
  by_cases hi : i < n
  · simp [hmem, hi]
  · simp [hmem, hi]

/-- If the loop returns, every iteration returned. -/
theorem foldlM_wr_inv {β : Type} (sched : List Nat) (res res' : List β) (body : Nat → M β)
    (h : sched.foldlM (fun res i => do wr res i (← body i)) res = .ok res') : ∀ i ∈ sched, ∃ a, body i = .ok a := by
  induction sched generalizing res with
  | nil => simp
  | cons k sched ih =>
    rw [List.foldlM_cons] at h
    obtain ⟨r, h1, h2⟩ := bind_eq_ok.1 h
    obtain ⟨a, h3, h4⟩ := bind_eq_ok.1 h1
    intro i hi
    rcases List.mem_cons.1 hi with rfl | hi
    · exact ⟨a, h3⟩
    · exact ih _ h2 i hi

/-- A parallel loop returns if and only if every iteration returns, and then slot `i` holds the result of iteration
`i`, whatever the schedule. -/
theorem prange_eq_ok {β : Type} {sched : List Nat} {n : Nat} (hs : sched.Perm (List.range n)) (init : β)
    {body : Nat → M β} {res : List β} :
    prange sched n init body = .ok res ↔
      res.length = n ∧ ∀ i (h : i < res.length), body i = .ok res[i] := by
  have hmem : ∀ i, i ∈ sched ↔ i < n := fun i => by rw [hs.mem_iff, List.mem_range]
  constructor
  · intro h
    have hall := foldlM_wr_inv sched _ res body h
    have hex : ∀ i, ∃ a, i < n → body i = .ok a := by
      intro i
      by_cases hi : i < n
      · obtain ⟨a, ha⟩ := hall i ((hmem i).2 hi)
        exact ⟨a, fun _ => ha⟩
      · exact ⟨init, fun h => (hi h).elim⟩
    obtain ⟨f, hf⟩ := Classical.axiomOfChoice hex
    rw [prange_ok hs init hf] at h
    cases h
    refine ⟨by simp, ?_⟩
    intro i hi
    simp only [List.length_map, List.length_range] at hi
    simp [hf i hi]
  · rintro ⟨h1, h2⟩
    have hb : ∀ i < n, body i = .ok ((res[i]?).getD init) := by
      intro i hi
      rw [← h1] at hi
      rw [h2 i hi]
      simp [hi]
    rw [prange_ok hs init hb]
    congr 1
    apply List.ext_getElem?
    intro i
    by_cases hi : i < n
    · have : i < res.length := by omega
      simp [hi, this]
    · have : res.length ≤ i := by omega
      simp [hi, this]

/-! ## Chunks -/

section
variable {α : Type}

theorem splitSizes_flatten (ss : List Nat) (l : List α) : (splitSizes ss l).flatten = l := by
  induction ss generalizing l with
  | nil => simp [splitSizes]
  | cons s ss ih => simp [splitSizes, ih]

theorem splitSizes_length (ss : List Nat) (l : List α) : (splitSizes ss l).length = ss.length + 1 := by
  induction ss generalizing l with
  | nil => simp [splitSizes]
  | cons s ss ih => simp [splitSizes, ih]

theorem splitSizes_sizes (ss : List Nat) (l : List α) (h : ss.sum ≤ l.length) :
    (splitSizes ss l).map List.length = ss ++ [l.length - ss.sum] := by
  induction ss generalizing l with
  | nil => simp [splitSizes]
  | cons s ss ih =>
    simp only [List.sum_cons] at h
    simp only [splitSizes, List.map_cons, List.cons_append, List.sum_cons]
    rw [ih _ (by simp; omega)]
    simp only [List.length_take, List.length_drop]
    rw [Nat.min_eq_left (by omega), Nat.sub_sub]

/-- `np.array_split`: `n` consecutive pieces whose sizes are `⌈len/n⌉` or `⌊len/n⌋`. -/
theorem arraySplit_spec (l : List α) {n : Nat} (hn : 0 < n) :
    ∃ cs, arraySplit l n = .ok cs ∧ cs.length = n ∧ cs.flatten = l ∧
      ∀ c ∈ cs, c.length = l.length / n ∨ c.length = l.length / n + 1 := by
  unfold arraySplit
  rw [if_neg (by omega)]
  refine ⟨_, rfl, ?_, splitSizes_flatten _ _, ?_⟩
  · rw [splitSizes_length]
    have := Nat.mod_lt l.length hn
    simp
    omega
  · have hmod := Nat.mod_lt l.length hn
    have hdiv := Nat.div_add_mod l.length n
    generalize l.length / n = q at *
    generalize l.length % n = r at *
    have hmul : n * q = (n - r - 1) * q + r * q + q := by
      conv => lhs; rw [show n = (n - r - 1) + r + 1 by omega]
      rw [Nat.add_mul, Nat.add_mul, Nat.one_mul]
    have hsum : (List.replicate r (q + 1) ++ List.replicate (n - r - 1) q).sum + q = l.length := by
      simp only [List.sum_append, List.sum_replicate_nat]
      rw [Nat.mul_add]
      omega
    intro c hc
    have h1 := splitSizes_sizes (List.replicate r (q + 1) ++ List.replicate (n - r - 1) q) l (by omega)
    have h2 : c.length ∈ (splitSizes (List.replicate r (q + 1) ++ List.replicate (n - r - 1) q) l).map List.length :=
      List.mem_map_of_mem hc
    rw [h1] at h2
    simp only [List.mem_append, List.mem_replicate, List.mem_singleton] at h2
    omega

theorem offsetsLoop_spec (cs : List (List α)) (i : Nat) (offsets : List Nat) (h : i + cs.length < offsets.length) :
    ∃ o, offsetsLoop cs i offsets = .ok o ∧ o.length = offsets.length ∧
      (∀ j, j ≤ i → o[j]? = offsets[j]?) ∧
      ∀ j, j ≤ cs.length → o[i + j]? = some ((offsets[i]?).getD 0 + ((cs.take j).map List.length).sum) := by
  induction cs generalizing i offsets with
  | nil =>
    simp only [List.length_nil, Nat.add_zero] at h
    refine ⟨offsets, rfl, rfl, fun _ _ => rfl, ?_⟩
    intro j hj
    simp only [List.length_nil, Nat.le_zero] at hj
    subst hj
    simp [h]
  | cons c cs ih =>
    simp only [List.length_cons] at h
    unfold offsetsLoop
    rw [rd_of_lt (by omega), ok_bind, wr_of_lt (by omega), ok_bind]
    obtain ⟨o, h1, h2, h3, h4⟩ := ih (i + 1) (offsets.set (i + 1) (offsets[i] + c.length)) (by simp; omega)
    refine ⟨o, h1, by simpa using h2, ?_, ?_⟩
    · intro j hj
      rw [h3 j (by omega), List.getElem?_set_ne (by omega)]
    · intro j hj
      cases j with
      | zero =>
        rw [Nat.add_zero, h3 i (by omega), List.getElem?_set_ne (by omega)]
        have : i < offsets.length := by omega
        simp [this]
      | succ j =>
        simp only [List.length_cons] at hj
        have := h4 j (by omega)
        rw [show i + (j + 1) = i + 1 + j by omega, this]
        have h5 : i + 1 < offsets.length := by omega
        have h6 : i < offsets.length := by omega
        simp [h5, h6]
        omega

/-- The offset of a chunk is the number of queries before it. -/
theorem chunkOffsets_spec (cs : List (List α)) {n : Nat} (hn : cs.length = n) (h0 : 0 < n) :
    ∃ o, chunkOffsets cs n = .ok o ∧ o.length = n ∧ ∀ j, j < n → o[j]? = some (((cs.take j).map List.length).sum) := by
  unfold chunkOffsets
  obtain ⟨o, h1, h2, _, h4⟩ := offsetsLoop_spec cs.dropLast 0 (List.replicate n 0) (by simp; omega)
  refine ⟨o, h1, by simpa using h2, ?_⟩
  intro j hj
  have := h4 j (by simp; omega)
  rw [Nat.zero_add] at this
  rw [this]
  have h5 : cs.dropLast.take j = cs.take j := by
    rw [List.dropLast_eq_take, List.take_take, Nat.min_eq_left (by omega)]
  simp [h5, h0]

/-! ## Concatenation -/

theorem concatLoop_spec (chunks : List (List α × Nat)) (hsz : ∀ c ∈ chunks, c.2 ≤ c.1.length) (start : Nat)
    (out : List α) (h : start + (chunks.map Prod.snd).sum = out.length) :
    concatLoop chunks start out = .ok (out.take start ++ chunks.flatMap fun c => c.1.take c.2) := by
  induction chunks generalizing start out with
  | nil =>
    simp only [List.map_nil, List.sum_nil, Nat.add_zero] at h
    simp [concatLoop, h]
  | cons c chunks ih =>
    obtain ⟨rows, size⟩ := c
    have hs : size ≤ rows.length := hsz (rows, size) (by simp)
    simp only [List.map_cons, List.sum_cons] at h
    unfold concatLoop takeExact
    rw [if_pos hs, ok_bind]
    unfold setSlice
    have hl : (rows.take size).length = size := by simp [hs]
    rw [hl, if_pos (by omega), ok_bind]
    rw [ih (fun c hc => hsz c (by simp [hc])) (start + size) _ (by simp; omega)]
    congr 1
    have h1 : (out.take start ++ rows.take size).length = start + size := by simp; omega
    rw [List.take_append_of_le_length (by omega), List.take_of_length_le (by omega)]
    simp

theorem concatenate_spec (g : α) (chunks : List (List α × Nat)) (hsz : ∀ c ∈ chunks, c.2 ≤ c.1.length) :
    concatenate g chunks = .ok (chunks.flatMap fun c => c.1.take c.2) := by
  unfold concatenate
  rw [concatLoop_spec chunks hsz 0 _ (by simp)]
  simp

/-- Numbering within the chunks plus the offsets is the numbering of the whole list. -/
theorem flatMap_chunks {β : Type} (cs : List (List α)) (g : α → Nat → List β) (k : Nat) :
    (List.range cs.length).flatMap (fun i => ((cs[i]?.getD []).zipIdx 0).flatMap
      fun p => g p.1 (p.2 + (k + ((cs.take i).map List.length).sum))) =
    (cs.flatten.zipIdx k).flatMap fun p => g p.1 p.2 := by
  induction cs generalizing k with
  | nil => simp
  | cons c cs ih =>
    rw [List.length_cons, List.range_succ_eq_map, List.flatMap_cons, List.flatten_cons, List.zipIdx_append,
      List.flatMap_append]
    congr 1
    · simp only [List.getElem?_cons_zero, Option.getD_some, List.take_zero, List.map_nil, List.sum_nil, Nat.add_zero]
      have : ∀ (c : List α) (m : Nat), (c.zipIdx m).flatMap (fun p => g p.1 (p.2 + k)) =
          (c.zipIdx (m + k)).flatMap fun p => g p.1 p.2 := by
        intro c
        induction c with
        | nil => simp
        | cons x c ihc => intro m; simp only [List.zipIdx_cons, List.flatMap_cons, ihc]; congr 3; omega
      simpa using this c 0
    · rw [List.flatMap_map, ← ih (k + c.length)]
      congr 1
      funext i
      simp only [List.getElem?_cons_succ, List.take_succ_cons, List.map_cons, List.sum_cons]
      congr 1
      funext p
      congr 1
      omega

end

end Celltree
