import Verif.Spec.Mesh
import Verif.Proofs.LocateBoxes
import Verif.Proofs.BuildStep

/-!
# From the caller's arrays to a consistent tree: fill values, orientation, bounding boxes
-/

set_option linter.unusedSectionVars false

namespace Celltree

/-! ## Rows -/

theorem rdI_of_range {α : Type} {l : List α} {v : Int} (h0 : 0 ≤ v) (h1 : v < l.length) :
    ∃ a, rdI l v = .ok a ∧ l[v.toNat]? = some a := by
  have hlt : v.toNat < l.length := by omega
  refine ⟨l[v.toNat], ?_, by simp [hlt]⟩
  generalize ha : l[v.toNat] = a
  have hv : v = (v.toNat : Int) := by omega
  rw [hv, rdI_nat, rd_of_lt hlt, ha]

theorem rowIndices_append_pad (fill : Int) (row : List Int) :
    rowIndices fill row ++ row.drop (rowIndices fill row).length = row := by
  unfold rowIndices
  have h := List.takeWhile_append_dropWhile (p := fun v => decide (v ≠ fill)) (l := row)
  have h2 : row.drop (row.takeWhile fun v => decide (v ≠ fill)).length = row.dropWhile fun v => decide (v ≠ fill) := by
    conv => lhs; arg 2; rw [← h]
    rw [List.drop_left]
  rw [h2, h]

theorem rowIndices_of_append {fill : Int} {a b : List Int} (ha : ∀ v ∈ a, v ≠ fill) (hb : ∀ v ∈ b, v = fill) :
    rowIndices fill (a ++ b) = a := by
  unfold rowIndices
  rw [List.takeWhile_append_of_pos (by simpa using ha)]
  cases b with
  | nil => simp
  | cons v b => simp [hb v (by simp)]

theorem mem_rowIndices_ne {fill : Int} {row : List Int} {v : Int} (h : v ∈ rowIndices fill row) : v ≠ fill := by
  unfold rowIndices at h
  induction row with
  | nil => simp at h
  | cons w row ih =>
    by_cases hw : w = fill
    · simp [hw] at h
    · simp only [List.takeWhile_cons, ne_eq, hw, not_false_eq_true, decide_true, if_true, List.mem_cons] at h
      rcases h with rfl | h
      · exact hw
      · exact ih h

/-- Rows in the notation of the code: `A` followed by padding with `-1`. -/
structure Row (nVertices ncol : Nat) (A : List Int) : Prop where
  three : 3 ≤ A.length
  le : A.length ≤ ncol
  range : ∀ v ∈ A, 0 ≤ v ∧ v < nVertices

/-- The row of a face with vertices `A`. -/
def padRow (ncol : Nat) (A : List Int) : List Int := A ++ List.replicate (ncol - A.length) fillValue

section
variable {n ncol : Nat} {A : List Int}

theorem Row.ne_fill (h : Row n ncol A) : ∀ v ∈ A, v ≠ fillValue := by
  intro v hv
  have := (h.range v hv).1
  unfold fillValue
  omega

theorem Row.reverse (h : Row n ncol A) : Row n ncol A.reverse :=
  ⟨by simpa using h.three, by simpa using h.le, fun v hv => h.range v (by simpa using hv)⟩

theorem Row.rowIndices (h : Row n ncol A) : rowIndices fillValue (padRow ncol A) = A :=
  rowIndices_of_append h.ne_fill (by intro v hv; exact (List.mem_replicate.1 hv).2)

theorem Row.length (h : Row n ncol A) : (padRow ncol A).length = ncol := by
  have := h.le
  simp [padRow]; omega

theorem Row.valid (h : Row n ncol A) : ValidRow n fillValue (padRow ncol A) := by
  refine ⟨?_, ?_, ?_⟩
  · rw [h.rowIndices]; exact h.three
  · rw [h.rowIndices]; exact h.range
  · rw [h.rowIndices, padRow, List.drop_left]
    intro v hv; exact (List.mem_replicate.1 hv).2

theorem ValidRow.row {fill : Int} {row : List Int} (h : ValidRow n fill row) (hl : row.length = ncol) :
    Row n ncol (Celltree.rowIndices fill row) := by
  refine ⟨h.three, ?_, h.range⟩
  have := congrArg List.length (rowIndices_append_pad fill row)
  simp at this
  omega

/-- Changing the notation of the padding. -/
theorem replaceFill_row {fill : Int} {row : List Int} (h : ValidRow n fill row) (hl : row.length = ncol) :
    replaceFill fill row = padRow ncol (Celltree.rowIndices fill row) := by
  have h1 := rowIndices_append_pad fill row
  have hpad := h.pad
  generalize hA : Celltree.rowIndices fill row = A at *
  generalize hP : row.drop A.length = P at *
  have hlen : A.length + P.length = ncol := by rw [← hl, ← h1]; simp
  rw [← h1, padRow, replaceFill, List.map_append]
  congr 1
  · have : ∀ v ∈ A, v ≠ fill := by intro v hv; rw [← hA] at hv; exact mem_rowIndices_ne hv
    conv => rhs; rw [← List.map_id A]
    apply List.map_congr_left
    intro v hv
    simp [this v hv]
  · rw [show ncol - A.length = P.length by omega]
    apply List.eq_replicate_iff.2
    refine ⟨by simp, ?_⟩
    intro b hb
    obtain ⟨v, hv, rfl⟩ := List.mem_map.1 hb
    rw [if_pos (hpad v hv)]

theorem padRow_of_valid {row : List Int} (h : ValidRow n fillValue row) (hl : row.length = ncol) :
    row = padRow ncol (Celltree.rowIndices fillValue row) := by
  rw [← replaceFill_row h hl, replaceFill]
  conv => lhs; rw [← List.map_id row]
  apply List.map_congr_left
  intro v _
  simp only [id_eq]
  split
  · assumption
  · rfl

theorem polygonLengthFrom_eq (i : Nat) (l : List Int) :
    polygonLengthFrom i l = i + (rowIndices fillValue l).length := by
  induction l generalizing i with
  | nil => simp [polygonLengthFrom, rowIndices]
  | cons v l ih =>
    unfold polygonLengthFrom
    by_cases hv : v = fillValue
    · simp [hv, rowIndices]
    · rw [if_neg hv, ih]
      simp [hv, rowIndices]
      omega

theorem Row.polygonLength (h : Row n ncol A) : polygonLength (padRow ncol A) = A.length := by
  unfold Celltree.polygonLength
  have h1 := h.three
  have h2 := h.le
  rw [h.length]
  by_cases hn : ncol ≤ 3
  · rw [if_pos hn]; omega
  · rw [if_neg hn, polygonLengthFrom_eq, padRow, List.drop_append_of_le_length h1, rowIndices_of_append]
    · simp; omega
    · intro v hv; exact h.ne_fill v (List.mem_of_mem_drop hv)
    · intro v hv; exact (List.mem_replicate.1 hv).2

end

/-! ## `flip` -/

theorem flip_prefix (face : List Int) (m : Nat) (hm : m ≤ face.length) (k : Nat) (hk : k ≤ m / 2) :
    ∃ f, (List.range k).foldlM (flipStep (m - 1)) face = .ok f ∧ f.length = face.length ∧
      ∀ j, f[j]? = if (j < k ∨ m - k ≤ j) ∧ j < m then face[m - 1 - j]? else face[j]? := by
  induction k with
  | zero =>
    refine ⟨face, rfl, rfl, ?_⟩
    intro j
    rw [if_neg (by omega)]
  | succ k ih =>
    obtain ⟨f, h1, h2, h3⟩ := ih (by omega)
    rw [List.range_succ, List.foldlM_append, h1, ok_bind, List.foldlM_cons]
    unfold flipStep
    rw [rd_of_lt (by omega), ok_bind, rd_of_lt (by omega), ok_bind, wr_of_lt (by omega), ok_bind,
      wr_of_lt (by simp; omega), ok_bind]
    refine ⟨_, rfl, by simp [h2], ?_⟩
    intro j
    have e1 : f[k]'(by omega) = face[k]'(by omega) := by
      have := h3 k
      rw [if_neg (by omega), List.getElem?_eq_getElem (by omega), List.getElem?_eq_getElem (by omega)] at this
      exact Option.some.inj this
    have e2 : f[m - 1 - k]'(by omega) = face[m - 1 - k]'(by omega) := by
      have := h3 (m - 1 - k)
      rw [if_neg (by omega), List.getElem?_eq_getElem (by omega), List.getElem?_eq_getElem (by omega)] at this
      exact Option.some.inj this
    rw [e1, e2]
    by_cases hj1 : j = m - 1 - k
    · subst hj1
      rw [List.getElem?_set_self (by simp; omega), if_pos (by omega)]
      rw [show m - 1 - (m - 1 - k) = k by omega, List.getElem?_eq_getElem (by omega)]
    · rw [List.getElem?_set_ne (by omega)]
      by_cases hj2 : j = k
      · subst hj2
        rw [List.getElem?_set_self (by omega), if_pos (by omega), List.getElem?_eq_getElem (by omega)]
      · rw [List.getElem?_set_ne (by omega), h3 j]
        by_cases hc : (j < k ∨ m - k ≤ j) ∧ j < m
        · rw [if_pos hc, if_pos (by omega)]
        · rw [if_neg hc, if_neg (by omega)]

theorem flip_spec (A P : List Int) : flip (A ++ P) A.length = .ok (A.reverse ++ P) := by
  obtain ⟨f, h1, h2, h3⟩ := flip_prefix (A ++ P) A.length (by simp) (A.length / 2) (Nat.le_refl _)
  unfold flip
  rw [h1]
  congr 1
  apply List.ext_getElem?
  intro j
  rw [h3 j]
  by_cases hj : j < A.length
  · have hr : (A.reverse ++ P)[j]? = A[A.length - 1 - j]? := by
      rw [List.getElem?_append_left (by simpa using hj), List.getElem?_reverse hj]
    rw [hr]
    split
    · rw [List.getElem?_append_left (by omega)]
    · rename_i hc
      rw [List.getElem?_append_left hj]
      congr 1
      omega
  · rw [if_neg (by omega), List.getElem?_append_right (by omega), List.getElem?_append_right (by simp; omega)]
    simp

/-! ## `counter_clockwise` -/

section
variable {F : Type} [Add F] [Sub F] [Mul F] [Div F] [Zero F] [One F] [Neg F] [IntCast F]
  [LT F] [LE F] [BEq F] [DecidableLT F] [DecidableLE F]

theorem ccwLoop_spec {vertices : List (Pt F)} {ncol : Nat} {A : List Int} (hA : Row vertices.length ncol A) (n i : Nat)
    (a b : Pt F) (B : List Int) (hB : B = A ∨ B = A.reverse) (hn : i + n ≤ A.length) :
    ∃ B', ccwLoop vertices A.length n i a b (padRow ncol B) = .ok (padRow ncol B') ∧ (B' = A ∨ B' = A.reverse) := by
  induction n generalizing i a b B with
  | zero => exact ⟨B, rfl, hB⟩
  | succ n ih =>
    have hl : B.length = A.length := by rcases hB with rfl | rfl <;> simp
    have hR : Row vertices.length ncol B := by rcases hB with rfl | rfl; exact hA; exact hA.reverse
    have hi : i < B.length := by omega
    unfold ccwLoop
    rw [padRow, rd_of_some (a := B[i]) (by rw [List.getElem?_append_left hi]; simp [hi]), ok_bind]
    obtain ⟨c, hc, _⟩ := rdI_of_range (hR.range B[i] (by simp)).1 (hR.range B[i] (by simp)).2
    rw [hc, ok_bind]
    simp only
    split
    · exact ih (i + 1) b c B hB (by omega)
    · split
      · rw [← hl, flip_spec, ok_bind, hl]
        have : B.reverse ++ List.replicate (ncol - A.length) fillValue = padRow ncol B.reverse := by
          simp [padRow, hl]
        rw [this]
        refine ih (i + 1) a b B.reverse ?_ (by omega)
        rcases hB with rfl | rfl <;> simp
      · exact ⟨B, rfl, hB⟩

theorem ccwFace_spec {vertices : List (Pt F)} {ncol : Nat} {A : List Int} (hA : Row vertices.length ncol A) :
    ∃ B, ccwFace vertices (padRow ncol A) = .ok (padRow ncol B) ∧ (B = A ∨ B = A.reverse) := by
  have h3 := hA.three
  unfold ccwFace
  rw [hA.polygonLength]
  simp only
  have key : ∀ k : Nat, k < A.length → ∃ p, (rdI (padRow ncol A) (k : Int) >>= fun v => rdI vertices v) = .ok p := by
    intro k hk
    rw [rdI_nat, padRow, rd_of_some (a := A[k]) (by rw [List.getElem?_append_left hk]; simp [hk]), ok_bind]
    obtain ⟨p, hp, _⟩ := rdI_of_range (hA.range A[k] (by simp)).1 (hA.range A[k] (by simp)).2
    exact ⟨p, hp⟩
  obtain ⟨p1, hp1⟩ := key (A.length - 2) (by omega)
  obtain ⟨p2, hp2⟩ := key (A.length - 1) (by omega)
  rw [show ((A.length : Int) - 2) = ((A.length - 2 : Nat) : Int) by omega,
    show ((A.length : Int) - 1) = ((A.length - 1 : Nat) : Int) by omega]
  obtain ⟨v1, q1, q1'⟩ := bind_eq_ok.1 hp1
  obtain ⟨v2, q2, q2'⟩ := bind_eq_ok.1 hp2
  rw [q1, ok_bind, q1', ok_bind, q2, ok_bind, q2', ok_bind]
  exact ccwLoop_spec hA A.length 0 p1 p2 A (Or.inl rfl) (by omega)

theorem foldlM_upd {β : Type} (sched : List Nat) (g : β → M β) (rows : List β)
    (hnd : sched.Nodup) (hlt : ∀ i ∈ sched, i < rows.length) (f : β → β) (hg : ∀ r ∈ rows, g r = .ok (f r)) :
    ∃ res, sched.foldlM (fun fs i => do wr fs i (← g (← rd fs i))) rows = .ok res ∧ res.length = rows.length ∧
      ∀ i, res[i]? = if i ∈ sched then rows[i]?.map f else rows[i]? := by
  suffices h : ∀ cur : List β, cur.length = rows.length → (∀ i ∈ sched, cur[i]? = rows[i]?) →
      ∃ res, sched.foldlM (fun fs i => do wr fs i (← g (← rd fs i))) cur = .ok res ∧ res.length = rows.length ∧
      ∀ i, res[i]? = if i ∈ sched then rows[i]?.map f else cur[i]? from
    h rows rfl (fun _ _ => rfl)
  induction sched with
  | nil => intro cur hl _; exact ⟨cur, rfl, hl, by simp⟩
  | cons k sched ih =>
    intro cur hl hcur
    have hk := hlt k (by simp)
    have e := hcur k (by simp)
    have hrow : rows[k]? = some rows[k] := by simp [hk]
    obtain ⟨hk1, hk2⟩ := List.nodup_cons.1 hnd
    rw [List.foldlM_cons, rd_of_some (e.trans hrow), ok_bind, hg _ (by simp), ok_bind, wr_of_lt (by omega), ok_bind]
    obtain ⟨res, h1, h2, h3⟩ := ih hk2 (fun i hi => hlt i (by simp [hi])) (cur.set k (f rows[k])) (by simpa using hl)
      (fun i hi => by
        rw [List.getElem?_set_ne (by rintro rfl; exact hk1 hi)]
        exact hcur i (by simp [hi]))
    refine ⟨res, h1, h2, ?_⟩
    intro i
    rw [h3 i]
    by_cases hi : i ∈ sched
    · simp [hi]
    · by_cases hik : i = k
      · subst hik; simp [hi, hl, hk]
      · simp [hi, hik, List.getElem?_set_ne (Ne.symm hik)]

theorem counterClockwise_ok {vertices : List (Pt F)} {rows : List (List Int)} {sched : List Nat}
    (hs : sched.Perm (List.range rows.length)) (f : List Int → List Int)
    (hg : ∀ r ∈ rows, ccwFace vertices r = .ok (f r)) :
    counterClockwise vertices rows sched = .ok (rows.map f) := by
  obtain ⟨res, h1, h2, h3⟩ := foldlM_upd sched (ccwFace vertices) rows (hs.nodup_iff.2 List.nodup_range)
    (fun i hi => by simpa using hs.mem_iff.1 hi) f hg
  unfold counterClockwise
  rw [h1]
  congr 1
  apply List.ext_getElem?
  intro i
  rw [h3 i, List.getElem?_map]
  by_cases hi : i < rows.length
  · rw [if_pos (hs.mem_iff.2 (List.mem_range.2 hi))]
  · rw [if_neg (fun h => hi (by simpa using hs.mem_iff.1 h))]
    simp [List.getElem?_eq_none (Nat.le_of_not_lt hi)]

end

/-! ## Bounding boxes -/

section
variable {F : Type} [Add F] [Sub F] [Mul F] [Div F] [Zero F] [One F] [Neg F] [IntCast F]
  [LT F] [LE F] [BEq F] [DecidableLT F] [DecidableLE F] [NumOrd F]
open NumOrd

theorem fmin_cases (a b : F) : fmin a b = a ∨ fmin a b = b := by unfold fmin; split <;> simp
theorem fmax_cases (a b : F) : fmax a b = a ∨ fmax a b = b := by unfold fmax; split <;> simp

theorem fmin_le_left {a b : F} (ha : num a) : fmin a b ≤ a := by
  unfold fmin; split
  · exact le_of_lt (by assumption)
  · exact le_refl ha

theorem fmin_le_right {a b : F} (ha : num a) (hb : num b) : fmin a b ≤ b := by
  unfold fmin; split
  · exact le_refl hb
  · exact le_of_not_lt hb ha (by assumption)

theorem le_fmax_left {a b : F} (ha : num a) : a ≤ fmax a b := by
  unfold fmax; split
  · exact le_of_lt (by assumption)
  · exact le_refl ha

theorem le_fmax_right {a b : F} (ha : num a) (hb : num b) : b ≤ fmax a b := by
  unfold fmax; split
  · exact le_refl hb
  · exact le_of_not_lt ha hb (by assumption)

theorem num_fmin {a b : F} (ha : num a) (hb : num b) : num (fmin a b) := by
  rcases fmin_cases a b with h | h <;> rw [h] <;> assumption

theorem num_fmax {a b : F} (ha : num a) (hb : num b) : num (fmax a b) := by
  rcases fmax_cases a b with h | h <;> rw [h] <;> assumption

/-- Adding a point to a bounding box. -/
def Box.extend (box : Box F) (v : Pt F) : Box F :=
  ⟨fmin box.xmin v.x, fmax box.xmax v.x, fmin box.ymin v.y, fmax box.ymax v.y⟩

theorem IsBBox.num {pts : List (Pt F)} {b : Box F} (h : IsBBox pts b) (hn : NumPts pts) (dim : Bool) :
    num (b.lo dim) ∧ num (b.hi dim) := by
  obtain ⟨⟨p1, h1, e1⟩, ⟨p2, h2, e2⟩, ⟨p3, h3, e3⟩, ⟨p4, h4, e4⟩⟩ := And.intro h.left (And.intro h.right (And.intro h.bottom h.top))
  cases dim
  · exact ⟨by show NumOrd.num b.xmin; rw [← e1]; exact (hn p1 h1).1, by show NumOrd.num b.xmax; rw [← e2]; exact (hn p2 h2).1⟩
  · exact ⟨by show NumOrd.num b.ymin; rw [← e3]; exact (hn p3 h3).2, by show NumOrd.num b.ymax; rw [← e4]; exact (hn p4 h4).2⟩

theorem IsBBox.extend {pts : List (Pt F)} {b : Box F} (h : IsBBox pts b) (hn : NumPts pts) {v : Pt F}
    (hv : NumOrd.num v.x ∧ NumOrd.num v.y) : IsBBox (pts ++ [v]) (b.extend v) := by
  have hx := h.num hn false
  have hy := h.num hn true
  simp only [Box.lo, Box.hi, Bool.false_eq_true, if_false, if_true] at hx hy
  constructor
  · intro p hp
    rcases List.mem_append.1 hp with hp | hp
    · obtain ⟨c1, c2, c3, c4⟩ := h.contains p hp
      exact ⟨NumOrd.le_trans (fmin_le_left hx.1) c1, NumOrd.le_trans c2 (le_fmax_left hx.2),
        NumOrd.le_trans (fmin_le_left hy.1) c3, NumOrd.le_trans c4 (le_fmax_left hy.2)⟩
    · rw [List.mem_singleton] at hp
      subst hp
      exact ⟨fmin_le_right hx.1 hv.1, le_fmax_right hx.2 hv.1, fmin_le_right hy.1 hv.2, le_fmax_right hy.2 hv.2⟩
  · obtain ⟨p, hp, e⟩ := h.left
    rcases fmin_cases b.xmin v.x with c | c
    · exact ⟨p, by simp [hp], by rw [Box.extend, c, e]⟩
    · exact ⟨v, by simp, by rw [Box.extend, c]⟩
  · obtain ⟨p, hp, e⟩ := h.right
    rcases fmax_cases b.xmax v.x with c | c
    · exact ⟨p, by simp [hp], by rw [Box.extend, c, e]⟩
    · exact ⟨v, by simp, by rw [Box.extend, c]⟩
  · obtain ⟨p, hp, e⟩ := h.bottom
    rcases fmin_cases b.ymin v.y with c | c
    · exact ⟨p, by simp [hp], by rw [Box.extend, c, e]⟩
    · exact ⟨v, by simp, by rw [Box.extend, c]⟩
  · obtain ⟨p, hp, e⟩ := h.top
    rcases fmax_cases b.ymax v.y with c | c
    · exact ⟨p, by simp [hp], by rw [Box.extend, c, e]⟩
    · exact ⟨v, by simp, by rw [Box.extend, c]⟩

theorem boundingBoxLoop_spec (vertices : List (Pt F)) (A P : List Int)
    (hA : ∀ v ∈ A, 0 ≤ v ∧ v < vertices.length) (hP : ∀ v ∈ P, v = fillValue)
    (hn : NumPts (A.filterMap fun v => vertices[v.toNat]?)) (pts : List (Pt F)) (hpts : NumPts pts) (b : Box F)
    (hb : IsBBox pts b) :
    ∃ b', boundingBoxLoop vertices (A ++ P) b = .ok b' ∧
      IsBBox (pts ++ A.filterMap fun v => vertices[v.toNat]?) b' := by
  induction A generalizing pts b with
  | nil =>
    refine ⟨b, ?_, by simpa using hb⟩
    cases P with
    | nil => rfl
    | cons v P => simp [boundingBoxLoop, hP v (by simp)]
  | cons v A ih =>
    obtain ⟨h0, h1⟩ := hA v (by simp)
    obtain ⟨p, hp, hp'⟩ := rdI_of_range h0 h1
    have hne : v ≠ fillValue := by unfold fillValue; omega
    rw [List.cons_append]
    unfold boundingBoxLoop
    rw [if_neg hne, hp, ok_bind]
    have hfm : (v :: A).filterMap (fun v => vertices[v.toNat]?) = p :: A.filterMap fun v => vertices[v.toNat]? := by
      simp [hp']
    rw [hfm] at hn ⊢
    have hpn := hn p (by simp)
    obtain ⟨b', e1, e2⟩ := ih (fun v hv => hA v (by simp [hv])) (fun q hq => hn q (by simp [hq])) (pts ++ [p])
      (by
        intro q hq
        rcases List.mem_append.1 hq with hq | hq
        · exact hpts q hq
        · rw [List.mem_singleton] at hq; subst hq; exact hpn) (b.extend p) (hb.extend hpts hpn)
    refine ⟨b', e1, ?_⟩
    simpa using e2

theorem boundingBox_spec {vertices : List (Pt F)} {ncol : Nat} {A : List Int} (hA : Row vertices.length ncol A)
    (hn : NumPts (A.filterMap fun v => vertices[v.toNat]?)) :
    ∃ b, boundingBox (padRow ncol A) vertices = .ok b ∧ IsBBox (A.filterMap fun v => vertices[v.toNat]?) b := by
  have h3 := hA.three
  cases A with
  | nil => simp at h3
  | cons v A =>
    obtain ⟨h0, h1⟩ := hA.range v (by simp)
    obtain ⟨p, hp, hp'⟩ := rdI_of_range h0 h1
    have hfm : (v :: A).filterMap (fun v => vertices[v.toNat]?) = p :: A.filterMap fun v => vertices[v.toNat]? := by
      simp [hp']
    rw [hfm] at hn ⊢
    have hpn := hn p (by simp)
    unfold padRow boundingBox
    simp only [List.cons_append]
    rw [hp, ok_bind]
    have hb0 : IsBBox [p] (⟨p.x, p.x, p.y, p.y⟩ : Box F) := by
      refine ⟨?_, ⟨p, by simp, rfl⟩, ⟨p, by simp, rfl⟩, ⟨p, by simp, rfl⟩, ⟨p, by simp, rfl⟩⟩
      intro q hq
      rw [List.mem_singleton] at hq
      subst hq
      exact ⟨NumOrd.le_refl hpn.1, NumOrd.le_refl hpn.1, NumOrd.le_refl hpn.2, NumOrd.le_refl hpn.2⟩
    have := boundingBoxLoop_spec vertices A (List.replicate (ncol - (v :: A).length) fillValue)
      (fun v hv => hA.range v (by simp [hv])) (by intro v hv; exact (List.mem_replicate.1 hv).2)
      (fun q hq => hn q (by simp [hq])) [p] (by intro q hq; rw [List.mem_singleton] at hq; subst hq; exact hpn)
      _ hb0
    simpa using this

theorem IsBBox.of_mem {pts pts' : List (Pt F)} {b : Box F} (h : IsBBox pts b) (hm : ∀ p, p ∈ pts' ↔ p ∈ pts) :
    IsBBox pts' b := by
  refine ⟨fun p hp => h.contains p ((hm p).1 hp), ?_, ?_, ?_, ?_⟩
  · obtain ⟨p, hp, e⟩ := h.left; exact ⟨p, (hm p).2 hp, e⟩
  · obtain ⟨p, hp, e⟩ := h.right; exact ⟨p, (hm p).2 hp, e⟩
  · obtain ⟨p, hp, e⟩ := h.bottom; exact ⟨p, (hm p).2 hp, e⟩
  · obtain ⟨p, hp, e⟩ := h.top; exact ⟨p, (hm p).2 hp, e⟩

/-- Overlap with the bounding box, in terms of the points. -/
theorem IsBBox.overlap_iff {pts : List (Pt F)} {b : Box F} (h : IsBBox pts b) (q : Box F) :
    boxesIntersect q b = true ↔ BoxOverlapsPts q pts := by
  simp only [boxesIntersect, Bool.and_eq_true, decide_eq_true_eq, BoxOverlapsPts]
  constructor
  · rintro ⟨⟨⟨h1, h2⟩, h3⟩, h4⟩
    refine ⟨?_, ?_, ?_, ?_⟩
    · obtain ⟨p, hp, e⟩ := h.right; exact ⟨p, hp, by rw [e]; exact h1⟩
    · obtain ⟨p, hp, e⟩ := h.left; exact ⟨p, hp, by rw [e]; exact h2⟩
    · obtain ⟨p, hp, e⟩ := h.top; exact ⟨p, hp, by rw [e]; exact h3⟩
    · obtain ⟨p, hp, e⟩ := h.bottom; exact ⟨p, hp, by rw [e]; exact h4⟩
  · rintro ⟨⟨p1, m1, h1⟩, ⟨p2, m2, h2⟩, ⟨p3, m3, h3⟩, ⟨p4, m4, h4⟩⟩
    exact ⟨⟨⟨lt_of_lt_of_le h1 (h.contains p1 m1).2.1, lt_of_le_of_lt (h.contains p2 m2).1 h2⟩,
      lt_of_lt_of_le h3 (h.contains p3 m3).2.2.2⟩, lt_of_le_of_lt (h.contains p4 m4).2.2.1 h4⟩

/-! ## The bounding box of the tree -/

theorem bboxTree_foldl (rest : List (Box F)) (b : Box F)
    (hb : ∀ d, num (b.lo d) ∧ num (b.hi d)) (hr : ∀ c ∈ rest, ∀ d, num (c.lo d) ∧ num (c.hi d)) :
    let m := rest.foldl (fun m c => (⟨fmin m.xmin c.xmin, fmax m.xmax c.xmax, fmin m.ymin c.ymin, fmax m.ymax c.ymax⟩ : Box F)) b
    (∀ d, num (m.lo d) ∧ num (m.hi d)) ∧
    (∀ c ∈ b :: rest, m.xmin ≤ c.xmin ∧ c.xmax ≤ m.xmax ∧ m.ymin ≤ c.ymin ∧ c.ymax ≤ m.ymax) ∧
    (∃ c ∈ b :: rest, m.xmin = c.xmin) ∧ (∃ c ∈ b :: rest, m.xmax = c.xmax) ∧
    (∃ c ∈ b :: rest, m.ymin = c.ymin) ∧ (∃ c ∈ b :: rest, m.ymax = c.ymax) := by
  induction rest generalizing b with
  | nil =>
    refine ⟨hb, ?_, ⟨b, by simp, rfl⟩, ⟨b, by simp, rfl⟩, ⟨b, by simp, rfl⟩, ⟨b, by simp, rfl⟩⟩
    intro c hc
    rw [List.mem_singleton] at hc
    subst hc
    exact ⟨NumOrd.le_refl (hb false).1, NumOrd.le_refl (hb false).2, NumOrd.le_refl (hb true).1,
      NumOrd.le_refl (hb true).2⟩
  | cons c rest ih =>
    have hc := hr c (by simp)
    have bf := hb false
    have bt := hb true
    have cf := hc false
    have ct := hc true
    simp only [Box.lo, Box.hi, Bool.false_eq_true, if_false, if_true] at bf bt cf ct
    rw [List.foldl_cons]
    obtain ⟨h0, h1, h2, h3, h4, h5⟩ := ih ⟨fmin b.xmin c.xmin, fmax b.xmax c.xmax, fmin b.ymin c.ymin, fmax b.ymax c.ymax⟩
      (by
        intro d
        cases d
        · exact ⟨num_fmin bf.1 cf.1, num_fmax bf.2 cf.2⟩
        · exact ⟨num_fmin bt.1 ct.1, num_fmax bt.2 ct.2⟩)
      (fun c' hc' => hr c' (by simp [hc']))
    refine ⟨h0, ?_, ?_, ?_, ?_, ?_⟩
    · intro e he
      obtain ⟨g1, g2, g3, g4⟩ := h1 _ List.mem_cons_self
      rcases List.mem_cons.1 he with rfl | he
      · exact ⟨NumOrd.le_trans g1 (fmin_le_left bf.1), NumOrd.le_trans (le_fmax_left bf.2) g2,
          NumOrd.le_trans g3 (fmin_le_left bt.1), NumOrd.le_trans (le_fmax_left bt.2) g4⟩
      · rcases List.mem_cons.1 he with rfl | he
        · exact ⟨NumOrd.le_trans g1 (fmin_le_right bf.1 cf.1), NumOrd.le_trans (le_fmax_right bf.2 cf.2) g2,
            NumOrd.le_trans g3 (fmin_le_right bt.1 ct.1), NumOrd.le_trans (le_fmax_right bt.2 ct.2) g4⟩
        · exact h1 e (by simp [he])
    · obtain ⟨e, he, ee⟩ := h2
      rcases List.mem_cons.1 he with rfl | he
      · rcases fmin_cases b.xmin c.xmin with k | k
        · exact ⟨b, by simp, ee.trans k⟩
        · exact ⟨c, by simp, ee.trans k⟩
      · exact ⟨e, by simp [he], ee⟩
    · obtain ⟨e, he, ee⟩ := h3
      rcases List.mem_cons.1 he with rfl | he
      · rcases fmax_cases b.xmax c.xmax with k | k
        · exact ⟨b, by simp, ee.trans k⟩
        · exact ⟨c, by simp, ee.trans k⟩
      · exact ⟨e, by simp [he], ee⟩
    · obtain ⟨e, he, ee⟩ := h4
      rcases List.mem_cons.1 he with rfl | he
      · rcases fmin_cases b.ymin c.ymin with k | k
        · exact ⟨b, by simp, ee.trans k⟩
        · exact ⟨c, by simp, ee.trans k⟩
      · exact ⟨e, by simp [he], ee⟩
    · obtain ⟨e, he, ee⟩ := h5
      rcases List.mem_cons.1 he with rfl | he
      · rcases fmax_cases b.ymax c.ymax with k | k
        · exact ⟨b, by simp, ee.trans k⟩
        · exact ⟨c, by simp, ee.trans k⟩
      · exact ⟨e, by simp [he], ee⟩

end

end Celltree
