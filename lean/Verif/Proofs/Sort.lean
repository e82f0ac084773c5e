import Verif.Proofs.Ghost
import Verif.Spec.NumOrd

/-!
# Buckets: `sort_bbox_indices`, `get_bounds`, merging of empty buckets, `split_plane`
-/

set_option linter.unusedSectionVars false

namespace Celltree

variable {F : Type} [Add F] [Sub F] [Mul F] [Div F] [Zero F] [One F] [Neg F] [IntCast F]
  [LT F] [LE F] [BEq F] [DecidableLT F] [DecidableLE F]

/-- The buckets cover the part `[lo, hi)` of `idx` consecutively, and `Q` holds for each bucket and its cells. -/
def Chain (Q : Bucket F → List Nat → Prop) (idx : List Nat) : Nat → Nat → List (Bucket F) → Prop
  | lo, hi, [] => lo = hi
  | lo, hi, b :: bs => lo + b.size ≤ hi ∧ (b.size ≠ 0 → b.index = (lo : Int)) ∧ Q b (seg idx lo (lo + b.size)) ∧
      Chain Q idx (lo + b.size) hi bs

theorem Chain.lo_le_hi {Q : Bucket F → List Nat → Prop} {idx : List Nat} {lo hi : Nat} {bs : List (Bucket F)}
    (h : Chain Q idx lo hi bs) : lo ≤ hi := by
  cases bs with
  | nil => exact Nat.le_of_eq h
  | cons b bs => have := h.1; omega

theorem Chain.sizes {Q : Bucket F → List Nat → Prop} {idx : List Nat} {lo hi : Nat} {bs : List (Bucket F)}
    (h : Chain Q idx lo hi bs) : (bs.map (·.size)).sum = hi - lo := by
  induction bs generalizing lo with
  | nil => cases h; simp
  | cons b bs ih =>
    have := ih h.2.2.2
    have h1 := h.1
    have h2 := h.2.2.2.lo_le_hi
    simp only [List.map_cons, List.sum_cons]
    omega

/-- A bucket of the chain with as many cells as the whole part contains all of them. -/
theorem Chain.full {Q : Bucket F → List Nat → Prop} {idx : List Nat} {lo hi : Nat} {bs : List (Bucket F)}
    (h : Chain Q idx lo hi bs) {b : Bucket F} (hb : b ∈ bs) (hs : b.size = hi - lo) : Q b (seg idx lo hi) := by
  induction bs generalizing lo with
  | nil => simp at hb
  | cons c bs ih =>
    obtain ⟨h1, h2, h3, h4⟩ := h
    rcases List.mem_cons.1 hb with rfl | hb
    · have : lo + b.size = hi := by omega
      rw [this] at h3; exact h3
    · by_cases hc : c.size = 0
      · rw [hc] at h4; exact ih h4 hb hs
      · have := h4.sizes
        have hle : b.size ≤ (bs.map (·.size)).sum := by
          clear ih h4 this
          induction bs with
          | nil => simp at hb
          | cons d bs ihd =>
            rcases List.mem_cons.1 hb with rfl | hb
            · simp
            · have := ihd (List.mem_cons_of_mem _ hb) hb; simp; omega
        have := h4.lo_le_hi
        omega

section sort
variable (coords : List (Box F)) (dim : Bool) (hi : Nat)

theorem sortLoop_spec (pend : Int) (bs : List (Bucket F)) (idx : List Nat) (cur : Nat) (hp : pend = (cur : Int))
    (hlo : cur ≤ hi) (hhi : hi ≤ idx.length) (hin : ∀ i ∈ seg idx cur hi, i < coords.length)
    (hz : ∀ b ∈ bs, b.size = 0) :
    Sat (fun e => e = .indexError ∧ ∃ i ∈ seg idx cur hi, ∀ b ∈ bs, cellTest coords b dim i = false)
      (fun r => PermOn idx r.2 cur hi ∧
        Chain (fun b cells => ∀ i ∈ cells, cellTest coords b dim i = true) r.2 cur hi r.1 ∧
        r.1.map (fun b => (b.Max, b.Min)) = bs.map (fun b => (b.Max, b.Min)))
      (sortLoop coords dim hi pend bs idx cur) := by
  induction bs generalizing pend idx cur with
  | nil =>
    unfold sortLoop
    by_cases h : cur = hi
    · rw [if_pos h]
      exact ⟨PermOn.refl _ hlo, h, rfl⟩
    · rw [if_neg h]
      refine ⟨rfl, ?_⟩
      have hl : (seg idx cur hi).length = hi - cur := seg_length hhi
      obtain ⟨i, hi⟩ := List.exists_mem_of_length_pos (l := seg idx cur hi) (by omega)
      exact ⟨i, hi, by simp⟩
  | cons b rest ih =>
    unfold sortLoop
    have hbz : b.size = 0 := hz b (by simp)
    have hrz : ∀ c ∈ rest, c.size = 0 := fun c hc => hz c (by simp [hc])
    by_cases h : cur = hi
    · simp only [if_pos h]
      refine ⟨PermOn.refl _ hlo, ?_, rfl⟩
      have key : ∀ bs : List (Bucket F), (∀ c ∈ bs, c.size = 0) →
          Chain (fun b cells => ∀ i ∈ cells, cellTest coords b dim i = true) idx cur hi bs := by
        intro bs hbs
        induction bs with
        | nil => exact h
        | cons c bs ihc =>
          have hc : c.size = 0 := hbs c (by simp)
          refine ⟨by omega, fun hne => (hne hc).elim, ?_, ?_⟩
          · rw [seg_empty _ (by omega)]; simp
          · rw [hc]; exact ihc fun d hd => hbs d (by simp [hd])
      apply key
      intro c hc
      rcases List.mem_cons.1 hc with rfl | hc
      · exact hbz
      · exact hrz c hc
    · simp only [if_neg h]
      rw [stablePartition_spec idx coords cur hi _ dim hlo hhi hin]
      simp only [ok_bind]
      have hct : ∀ i, cellTest coords { b with index := pend } dim i = cellTest coords b dim i := fun i => rfl
      rw [show cellTest coords { b with index := pend } dim = cellTest coords b dim from funext hct]
      obtain ⟨p, hpdef⟩ : ∃ p, p = cellTest coords b dim := ⟨_, rfl⟩
      rw [← hpdef]
      have hsum : ((seg idx cur hi).filter p).length + ((seg idx cur hi).filter fun i => !p i).length = hi - cur := by
        rw [← seg_length (lo := cur) hhi]
        generalize seg idx cur hi = l
        induction l with
        | nil => rfl
        | cons x l ihl =>
          by_cases hx : p x = true
          · simp [hx] at ihl ⊢; omega
          · simp [hx] at ihl ⊢; omega
      obtain ⟨A, hA⟩ : ∃ A, A = (seg idx cur hi).filter p := ⟨_, rfl⟩
      obtain ⟨B, hB⟩ : ∃ B, B = (seg idx cur hi).filter fun i => !p i := ⟨_, rfl⟩
      rw [← hA, ← hB] at hsum ⊢
      have hABp : (A ++ B).Perm (seg idx cur hi) := by rw [hA, hB]; exact List.filter_append_perm p _
      obtain ⟨idx1, hidx1⟩ : ∃ idx1, idx1 = idx.take cur ++ (A ++ B) ++ idx.drop hi := ⟨_, rfl⟩
      rw [← hidx1]
      have hp1 : PermOn idx idx1 cur hi := ⟨A ++ B, hABp, hidx1⟩
      have hl1 := hp1.length_eq hlo
      have e0 : (idx.take cur).length = cur := by simp; omega
      have hsA : seg idx1 cur (cur + A.length) = A := by
        have e1 : (idx.take cur ++ A).length = cur + A.length := by simp; omega
        have e2 : idx1 = (idx.take cur ++ A) ++ (B ++ idx.drop hi) := by rw [hidx1]; simp
        unfold seg
        conv => lhs; arg 2; rw [e2, ← e1, List.take_left]
        conv => lhs; arg 1; rw [← e0]
        rw [List.drop_left]
      have hsB : seg idx1 (cur + A.length) hi = B := by
        have e1 : (idx.take cur ++ A).length = cur + A.length := by simp; omega
        have e3 : ((idx.take cur ++ A) ++ B).length = hi := by simp; omega
        have e2 : idx1 = ((idx.take cur ++ A) ++ B) ++ idx.drop hi := by rw [hidx1]; simp
        unfold seg
        conv => lhs; arg 2; rw [e2, ← e3, List.take_left]
        rw [← e1, List.drop_left]
      have hpend : pend + (((((cur + A.length : Nat) : Int) - pend).toNat : Nat) : Int) =
          ((cur + A.length : Nat) : Int) := by omega
      have hsz : (((cur + A.length : Nat) : Int) - pend).toNat = A.length := by omega
      have hih := ih (pend + (((((cur + A.length : Nat) : Int) - pend).toNat : Nat) : Int)) idx1 (cur + A.length)
        hpend (by omega) (by omega)
        (by rw [hsB]; intro i hi'; exact hin i (hABp.mem_iff.1 (List.mem_append_right _ hi'))) hrz
      refine Sat.bind (Sat.mono hih ?_ (fun a ha => ha)) ?_
      · rintro e ⟨he, i, hi1, hi2⟩
        rw [hsB, hB, List.mem_filter] at hi1
        refine ⟨he, i, hi1.1, ?_⟩
        intro c hc
        rcases List.mem_cons.1 hc with rfl | hc
        · have := hi1.2
          rw [hpdef] at this
          simpa using this
        · exact hi2 c hc
      · rintro ⟨rest', idx'⟩ ⟨hq1, hq2, hq3⟩
        have hcc : cur + A.length ≤ hi := by omega
        have hi1 : hi ≤ idx1.length := by omega
        refine ⟨hp1.trans (hq1.widen hcc hi1 (by omega) (Nat.le_refl _)) hlo hhi, ?_, ?_⟩
        · refine ⟨?_, ?_, ?_, ?_⟩
          · simp only [hsz]; exact hcc
          · intro _; exact hp
          · simp only [hsz]
            rw [hq1.seg_disjoint hcc hi1 (Or.inl (Nat.le_refl _)), hsA, hA]
            intro i hi'
            have := (List.mem_filter.1 hi').2
            rw [hpdef] at this
            exact this
          · simp only [hsz]; exact hq2
        · simp only [List.map_cons, hq3]

end sort

/-! ## Bounds -/

/-- `(min of the lower bounds, max of the upper bounds)` of the boxes of the cells, starting from `(r, l)`. -/
def boundsFold (coords : List (Box F)) (dim : Bool) : List Nat → F → F → F × F
  | [], r, l => (r, l)
  | i :: is, r, l =>
    match coords[i]? with
    | some box =>
      boundsFold coords dim is (if box.lo dim < r then box.lo dim else r) (if box.hi dim > l then box.hi dim else l)
    | none => boundsFold coords dim is r l

theorem getBoundsLoop_spec (coords : List (Box F)) (idx : List Nat) (dim : Bool) (n i : Nat) (r l : F)
    (hlen : i + n ≤ idx.length) (hin : ∀ j ∈ seg idx i (i + n), j < coords.length) :
    getBoundsLoop coords idx dim n i r l = .ok (boundsFold coords dim (seg idx i (i + n)) r l) := by
  induction n generalizing i r l with
  | zero => simp [getBoundsLoop, seg_empty, boundsFold]
  | succ n ih =>
    have hlt : i < idx.length := by omega
    have hs : seg idx i (i + (n + 1)) = idx[i] :: seg idx (i + 1) (i + 1 + n) := by
      rw [← seg_append_seg idx (show i ≤ i + 1 by omega) (show i + 1 ≤ i + (n + 1) by omega)]
      have : seg idx i (i + 1) = [idx[i]] := by
        unfold seg
        rw [List.take_add_one, List.getElem?_eq_getElem hlt, List.drop_append]
        have h0 : (idx.take i).drop i = [] := List.drop_eq_nil_of_le (by simp; omega)
        have h1 : i - (idx.take i).length = 0 := by simp; omega
        rw [h0, h1]; rfl
      rw [this, show i + (n + 1) = i + 1 + n by omega]; rfl
    have hj : idx[i] < coords.length := hin _ (by rw [hs]; simp)
    unfold getBoundsLoop
    rw [rdI_nat, rd_of_lt hlt, ok_bind, rd_of_lt hj, ok_bind]
    rw [hs]
    have := ih (i + 1) (if coords[idx[i]].lo dim < r then coords[idx[i]].lo dim else r)
      (if coords[idx[i]].hi dim > l then coords[idx[i]].hi dim else l) (by omega)
      (fun j hj => hin j (by rw [hs]; simp [hj]))
    simp only [boundsFold, List.getElem?_eq_getElem hj]
    exact this

theorem getBounds_spec (env : Env F) (coords : List (Box F)) (idx : List Nat) (dim : Bool) (n i : Nat)
    (hlen : i + n ≤ idx.length) (hin : ∀ j ∈ seg idx i (i + n), j < coords.length) :
    getBounds env i n coords idx dim =
      .ok (boundsFold coords dim (seg idx i (i + n)) env.floatMax env.floatMin) :=
  getBoundsLoop_spec coords idx dim n i _ _ hlen hin

/-- The bounds are tight. -/
theorem boundsFold_tight (coords : List (Box F)) (dim : Bool) (cells : List Nat) (r l : F) :
    (∀ v, l ≤ v → AllHiLe coords dim cells v → (boundsFold coords dim cells r l).2 ≤ v) ∧
    (∀ v, v ≤ r → AllLoGe coords dim cells v → v ≤ (boundsFold coords dim cells r l).1) := by
  induction cells generalizing r l with
  | nil => exact ⟨fun v h _ => h, fun v h _ => h⟩
  | cons i is ih =>
    simp only [boundsFold]
    cases hb : coords[i]? with
    | none =>
      exact ⟨fun v h ha => (ih r l).1 v h fun j hj => ha j (by simp [hj]),
        fun v h ha => (ih r l).2 v h fun j hj => ha j (by simp [hj])⟩
    | some box =>
      simp only
      refine ⟨fun v h ha => (ih _ _).1 v ?_ fun j hj => ha j (by simp [hj]),
        fun v h ha => (ih _ _).2 v ?_ fun j hj => ha j (by simp [hj])⟩
      · split
        · exact ha i (by simp) box hb
        · exact h
      · split
        · exact ha i (by simp) box hb
        · exact h

section
variable [NumOrd F]
open NumOrd

/-- The bounds are valid; `NaN` starting values are excluded. -/
theorem boundsFold_valid (coords : List (Box F)) (dim : Bool) (cells : List Nat) (r l : F) (hr : num r) (hl : num l)
    (hn : ∀ b ∈ coords, num (b.lo dim) ∧ num (b.hi dim)) :
    let p := boundsFold coords dim cells r l
    num p.1 ∧ num p.2 ∧ p.1 ≤ r ∧ l ≤ p.2 ∧ AllLoGe coords dim cells p.1 ∧ AllHiLe coords dim cells p.2 := by
  induction cells generalizing r l with
  | nil => exact ⟨hr, hl, le_refl hr, le_refl hl, by simp [AllLoGe], by simp [AllHiLe]⟩
  | cons i is ih =>
    simp only [boundsFold]
    cases hb : coords[i]? with
    | none =>
      simp only
      obtain ⟨h1, h2, h3, h4, h5, h6⟩ := ih r l hr hl
      refine ⟨h1, h2, h3, h4, ?_, ?_⟩
      · intro j hj b' hb'
        rcases List.mem_cons.1 hj with rfl | hj
        · rw [hb] at hb'; cases hb'
        · exact h5 j hj b' hb'
      · intro j hj b' hb'
        rcases List.mem_cons.1 hj with rfl | hj
        · rw [hb] at hb'; cases hb'
        · exact h6 j hj b' hb'
    | some box =>
      simp only
      obtain ⟨n1, n2⟩ := hn box (List.mem_of_getElem? hb)
      have hr' : num (if box.lo dim < r then box.lo dim else r) := by split <;> assumption
      have hl' : num (if box.hi dim > l then box.hi dim else l) := by split <;> assumption
      obtain ⟨h1, h2, h3, h4, h5, h6⟩ := ih _ _ hr' hl'
      have hrle : (if box.lo dim < r then box.lo dim else r) ≤ r ∧
          (if box.lo dim < r then box.lo dim else r) ≤ box.lo dim := by
        by_cases h : box.lo dim < r
        · rw [if_pos h]; exact ⟨le_of_lt h, le_refl n1⟩
        · rw [if_neg h]; exact ⟨le_refl hr, le_of_not_lt n1 hr h⟩
      have hlle : l ≤ (if box.hi dim > l then box.hi dim else l) ∧
          box.hi dim ≤ (if box.hi dim > l then box.hi dim else l) := by
        by_cases h : box.hi dim > l
        · rw [if_pos h]; exact ⟨le_of_lt h, le_refl n2⟩
        · rw [if_neg h]; exact ⟨le_refl hl, le_of_not_lt hl n2 h⟩
      refine ⟨h1, h2, le_trans h3 hrle.1, le_trans hlle.1 h4, ?_, ?_⟩
      · intro j hj b' hb'
        rcases List.mem_cons.1 hj with rfl | hj
        · rw [hb] at hb'; cases hb'; exact le_trans h3 hrle.2
        · exact h5 j hj b' hb'
      · intro j hj b' hb'
        rcases List.mem_cons.1 hj with rfl | hj
        · rw [hb] at hb'; cases hb'; exact le_trans hlle.2 h4
        · exact h6 j hj b' hb'

end

/-- `Rmin` and `Lmax` of the bucket are the bounds of its cells. -/
def BoundsQ (env : Env F) (coords : List (Box F)) (dim : Bool) (b : Bucket F) (cells : List Nat) : Prop :=
  (b.Rmin, b.Lmax) = boundsFold coords dim cells env.floatMax env.floatMin

theorem boundBuckets_spec (env : Env F) (coords : List (Box F)) (idx : List Nat) (dim : Bool)
    {Q : Bucket F → List Nat → Prop} (bs : List (Bucket F)) (lo hi : Nat) (h : Chain Q idx lo hi bs)
    (hlen : hi ≤ idx.length) (hin : ∀ j ∈ idx, j < coords.length) :
    ∃ bs', boundBuckets env coords idx dim bs = .ok bs' ∧ Chain (BoundsQ env coords dim) idx lo hi bs' ∧
      bs'.map (fun b => (b.Max, b.Min, b.index, b.size)) = bs.map (fun b => (b.Max, b.Min, b.index, b.size)) := by
  induction bs generalizing lo with
  | nil => exact ⟨[], rfl, h, rfl⟩
  | cons b bs ih =>
    obtain ⟨h1, h2, h3, h4⟩ := h
    obtain ⟨bs', e1, e2, e3⟩ := ih _ h4
    have hgb : getBounds env b.index b.size coords idx dim =
        .ok (boundsFold coords dim (seg idx lo (lo + b.size)) env.floatMax env.floatMin) := by
      by_cases hz : b.size = 0
      · rw [hz, seg_empty _ (by omega)]; rfl
      · rw [h2 hz]
        apply getBounds_spec
        · omega
        · intro j hj
          obtain ⟨k, _, _, hk⟩ := mem_seg.1 hj
          exact hin j (List.mem_of_getElem? hk)
    unfold boundBuckets at e1 ⊢
    rw [List.mapM_cons, hgb, ok_bind]
    simp only [ok_bind, e1]
    refine ⟨_, rfl, ⟨h1, h2, rfl, e2⟩, ?_⟩
    simp [e3]

/-! ## Empty buckets -/

theorem dropAux_spec {Q : Bucket F → List Nat → Prop} (hQ : ∀ b cells m, Q b cells → Q { b with Min := m } cells)
    (idx : List Nat) (min0 : F) (bs : List (Bucket F)) (lo hi : Nat) (h : Chain Q idx lo hi bs) (hlt : lo < hi) :
    ∃ b bs', dropEmptyFront.dropAux min0 bs = .ok (b :: bs') ∧ b.size ≠ 0 ∧ Chain Q idx lo hi (b :: bs') ∧
      ((b :: bs').map (·.size)).filter (· ≠ 0) = (bs.map (·.size)).filter (· ≠ 0) := by
  induction bs with
  | nil => cases h; omega
  | cons b bs ih =>
    obtain ⟨h1, h2, h3, h4⟩ := h
    unfold dropEmptyFront.dropAux
    by_cases hz : b.size = 0
    · rw [if_pos hz]
      rw [hz] at h4
      obtain ⟨b', bs', e1, e2, e3, e4⟩ := ih h4
      exact ⟨b', bs', e1, e2, e3, by rw [e4]; simp [hz]⟩
    · rw [if_neg hz]
      exact ⟨_, bs, rfl, hz, ⟨h1, h2, hQ _ _ _ h3, h4⟩, by simp⟩

theorem dropEmptyFront_spec {Q : Bucket F → List Nat → Prop}
    (hQ : ∀ b cells m, Q b cells → Q { b with Min := m } cells) (idx : List Nat) (bs : List (Bucket F)) (lo hi : Nat)
    (h : Chain Q idx lo hi bs) (hlt : lo < hi) :
    ∃ b bs', dropEmptyFront bs = .ok (b :: bs') ∧ b.size ≠ 0 ∧ Chain Q idx lo hi (b :: bs') ∧
      ((b :: bs').map (·.size)).filter (· ≠ 0) = (bs.map (·.size)).filter (· ≠ 0) := by
  cases bs with
  | nil => cases h; omega
  | cons b bs =>
    unfold dropEmptyFront
    by_cases hz : b.size = 0
    · simp only [hz, if_true]
      obtain ⟨h1, h2, h3, h4⟩ := h
      rw [hz] at h4
      obtain ⟨b', bs', e1, e2, e3, e4⟩ := dropAux_spec hQ idx b.Min bs lo hi h4 hlt
      exact ⟨b', bs', e1, e2, e3, by rw [e4]; simp [hz]⟩
    · simp only [hz, if_false]
      exact ⟨b, bs, rfl, hz, h, rfl⟩

theorem mergeEmpty_spec {Q : Bucket F → List Nat → Prop} (hQ : ∀ b cells m, Q b cells → Q { b with Max := m } cells)
    (idx : List Nat) (b : Bucket F) (bs : List (Bucket F)) (lo hi : Nat) (h : Chain Q idx lo hi (b :: bs))
    (hb : b.size ≠ 0) :
    Chain Q idx lo hi (mergeEmpty b bs) ∧ (∀ c ∈ mergeEmpty b bs, c.size ≠ 0) ∧
      (mergeEmpty b bs).map (·.size) = ((b :: bs).map (·.size)).filter (· ≠ 0) := by
  induction bs generalizing b lo with
  | nil => exact ⟨h, by simpa [mergeEmpty] using hb, by simp [mergeEmpty, hb]⟩
  | cons c bs ih =>
    obtain ⟨h1, h2, h3, h4, h5, h6, h7⟩ := h
    unfold mergeEmpty
    by_cases hz : c.size = 0
    · rw [if_pos hz]
      rw [hz] at h7
      obtain ⟨e1, e2, e3⟩ := ih { b with Max := c.Max } lo ⟨h1, h2, hQ _ _ _ h3, h7⟩ hb
      exact ⟨e1, e2, by rw [e3]; simp [hz, List.filter_cons]⟩
    · rw [if_neg hz]
      obtain ⟨e1, e2, e3⟩ := ih c (lo + b.size) ⟨h4, h5, h6, h7⟩ hz
      refine ⟨⟨h1, h2, h3, e1⟩, ?_, ?_⟩
      · intro d hd
        rcases List.mem_cons.1 hd with rfl | hd
        · exact hb
        · exact e2 d hd
      · rw [List.map_cons, e3]; simp [hb]

/-! ## `split_plane` -/

theorem splitPlaneLoop_spec (rootSize : Nat) (rangeLmax rangeRmin bl : F) (i : Nat) (cur : Bucket F)
    (bs : List (Bucket F)) (inLeft : Int) (minCost : F) (plane : Option Nat)
    (hp : ∀ p, plane = some p → 1 ≤ p ∧ p < i + bs.length) (hi : 1 ≤ i) :
    Sat (fun e => e = .zeroDiv ∧ (bl == 0) = true) (fun r => ∀ p, r = some p → 1 ≤ p ∧ p < i + bs.length)
      (splitPlaneLoop rootSize rangeLmax rangeRmin bl i cur bs inLeft minCost plane) := by
  induction bs generalizing i cur inLeft minCost plane with
  | nil => exact hp
  | cons b bs ih =>
    unfold splitPlaneLoop
    by_cases hbl : (bl == 0) = true
    · simp [fdiv, hbl]
    · have hd : ∀ x : F, fdiv x bl = .ok (x / bl) := fun x => by simp [fdiv, hbl]
      simp only [hd, ok_bind]
      have hlen : i + (b :: bs).length = i + 1 + bs.length := by simp; omega
      rw [hlen] at hp ⊢
      split
      · apply ih
        · intro p hp'
          cases hp'
          exact ⟨hi, by omega⟩
        · omega
      · exact ih _ _ _ _ _ hp (by omega)

section
variable [NumOrd F]
open NumOrd

theorem maxLmax_ge (bs : List (Bucket F)) (init : F) (hi : num init) (hn : ∀ b ∈ bs, num b.Lmax) :
    num (maxLmax init bs) ∧ init ≤ maxLmax init bs ∧ ∀ b ∈ bs, b.Lmax ≤ maxLmax init bs := by
  induction bs generalizing init with
  | nil => exact ⟨hi, le_refl hi, by simp⟩
  | cons b bs ih =>
    unfold maxLmax
    rw [List.foldl_cons]
    have hb := hn b (by simp)
    have hi' : num (if b.Lmax > init then b.Lmax else init) := by split <;> assumption
    obtain ⟨h1, h2, h3⟩ := ih _ hi' (fun c hc => hn c (by simp [hc]))
    have hle : init ≤ (if b.Lmax > init then b.Lmax else init) ∧ b.Lmax ≤ (if b.Lmax > init then b.Lmax else init) := by
      by_cases h : b.Lmax > init
      · rw [if_pos h]; exact ⟨le_of_lt h, le_refl hb⟩
      · rw [if_neg h]; exact ⟨le_refl hi, le_of_not_lt hi hb h⟩
    refine ⟨h1, le_trans hle.1 h2, ?_⟩
    intro c hc
    rcases List.mem_cons.1 hc with rfl | hc
    · exact le_trans hle.2 h2
    · exact h3 c hc

theorem minRmin_le (bs : List (Bucket F)) (init : F) (hi : num init) (hn : ∀ b ∈ bs, num b.Rmin) :
    num (minRmin init bs) ∧ minRmin init bs ≤ init ∧ ∀ b ∈ bs, minRmin init bs ≤ b.Rmin := by
  induction bs generalizing init with
  | nil => exact ⟨hi, le_refl hi, by simp⟩
  | cons b bs ih =>
    unfold minRmin
    rw [List.foldl_cons]
    have hb := hn b (by simp)
    have hi' : num (if b.Rmin < init then b.Rmin else init) := by split <;> assumption
    obtain ⟨h1, h2, h3⟩ := ih _ hi' (fun c hc => hn c (by simp [hc]))
    have hle : (if b.Rmin < init then b.Rmin else init) ≤ init ∧ (if b.Rmin < init then b.Rmin else init) ≤ b.Rmin := by
      by_cases h : b.Rmin < init
      · rw [if_pos h]; exact ⟨le_of_lt h, le_refl hb⟩
      · rw [if_neg h]; exact ⟨le_refl hi, le_of_not_lt hb hi h⟩
    refine ⟨h1, le_trans h2 hle.1, ?_⟩
    intro c hc
    rcases List.mem_cons.1 hc with rfl | hc
    · exact le_trans h2 hle.2
    · exact h3 c hc

end

/-- Cutting a chain of non-empty buckets at a plane. -/
theorem Chain.split {Q : Bucket F → List Nat → Prop} {idx : List Nat} {lo hi : Nat} {bs : List (Bucket F)}
    (h : Chain Q idx lo hi bs) (hne : ∀ b ∈ bs, b.size ≠ 0) {p : Nat} (h1 : 1 ≤ p) (h2 : p < bs.length) :
    ∃ (b : Bucket F) (mid : Nat), bs[p]? = some b ∧ b.index = (mid : Int) ∧ lo < mid ∧ mid < hi ∧
      Chain Q idx lo mid (bs.take p) ∧ Chain Q idx mid hi (bs.drop p) := by
  induction p generalizing lo bs with
  | zero => omega
  | succ p ih =>
    cases bs with
    | nil => simp at h2
    | cons b bs =>
      obtain ⟨c1, c2, c3, c4⟩ := h
      have hb := hne b (by simp)
      have hr : ∀ c ∈ bs, c.size ≠ 0 := fun c hc => hne c (by simp [hc])
      simp only [List.length_cons] at h2
      by_cases hp : p = 0
      · subst hp
        cases bs with
        | nil => simp at h2
        | cons c bs =>
          have hc := hr c (by simp)
          have hcc := c4
          obtain ⟨d1, d2, d3, d4⟩ := c4
          refine ⟨c, lo + b.size, rfl, d2 hc, by omega, by omega, ?_, ?_⟩
          · exact ⟨Nat.le_refl _, c2, c3, rfl⟩
          · exact hcc
      · obtain ⟨b', mid, e1, e2, e3, e4, e5, e6⟩ := ih c4 hr (by omega) (by omega)
        refine ⟨b', mid, by simpa using e1, e2, by omega, e4, ?_, by simpa using e6⟩
        exact ⟨by omega, c2, c3, e5⟩

theorem Chain.tight {env : Env F} {coords : List (Box F)} {dim : Bool} {idx : List Nat} {lo hi : Nat}
    {bs : List (Bucket F)} (h : Chain (BoundsQ env coords dim) idx lo hi bs) :
    (∀ v, env.floatMin ≤ v → AllHiLe coords dim (seg idx lo hi) v → ∀ b ∈ bs, b.Lmax ≤ v) ∧
    (∀ v, v ≤ env.floatMax → AllLoGe coords dim (seg idx lo hi) v → ∀ b ∈ bs, v ≤ b.Rmin) := by
  induction bs generalizing lo with
  | nil => simp
  | cons b bs ih =>
    obtain ⟨h1, h2, h3, h4⟩ := h
    have ht := boundsFold_tight coords dim (seg idx lo (lo + b.size)) env.floatMax env.floatMin
    rw [BoundsQ] at h3
    rw [← h3] at ht
    rw [← seg_append_seg idx (Nat.le_add_right lo b.size) h1]
    constructor
    · intro v hv ha c hc
      rcases List.mem_cons.1 hc with rfl | hc
      · exact ht.1 v hv fun i hi => ha i (List.mem_append_left _ hi)
      · exact (ih h4).1 v hv (fun i hi => ha i (List.mem_append_right _ hi)) c hc
    · intro v hv ha c hc
      rcases List.mem_cons.1 hc with rfl | hc
      · exact ht.2 v hv fun i hi => ha i (List.mem_append_left _ hi)
      · exact (ih h4).2 v hv (fun i hi => ha i (List.mem_append_right _ hi)) c hc

theorem maxLmax_le (bs : List (Bucket F)) (init v : F) (hi : init ≤ v) (h : ∀ b ∈ bs, b.Lmax ≤ v) :
    maxLmax init bs ≤ v := by
  induction bs generalizing init with
  | nil => exact hi
  | cons b bs ih =>
    unfold maxLmax
    rw [List.foldl_cons]
    refine ih _ ?_ fun c hc => h c (by simp [hc])
    split
    · exact h b (by simp)
    · exact hi

theorem le_minRmin (bs : List (Bucket F)) (init v : F) (hi : v ≤ init) (h : ∀ b ∈ bs, v ≤ b.Rmin) :
    v ≤ minRmin init bs := by
  induction bs generalizing init with
  | nil => exact hi
  | cons b bs ih =>
    unfold minRmin
    rw [List.foldl_cons]
    refine ih _ ?_ fun c hc => h c (by simp [hc])
    split
    · exact h b (by simp)
    · exact hi

section
variable [NumOrd F]
open NumOrd

theorem Chain.allHiLe {env : Env F} {coords : List (Box F)} {dim : Bool} {idx : List Nat} {lo hi : Nat}
    {bs : List (Bucket F)} (h : Chain (BoundsQ env coords dim) idx lo hi bs) (hmax : num env.floatMax)
    (hmin : num env.floatMin) (hn : ∀ b ∈ coords, num (b.lo dim) ∧ num (b.hi dim)) {v : F}
    (hv : ∀ b ∈ bs, b.Lmax ≤ v) : AllHiLe coords dim (seg idx lo hi) v := by
  induction bs generalizing lo with
  | nil => cases h; rw [seg_empty _ (Nat.le_refl _)]; simp [AllHiLe]
  | cons b bs ih =>
    obtain ⟨h1, h2, h3, h4⟩ := h
    rw [← seg_append_seg idx (Nat.le_add_right lo b.size) h1]
    intro i hi
    rcases List.mem_append.1 hi with hi | hi
    · intro box hbox
      have := (boundsFold_valid coords dim (seg idx lo (lo + b.size)) _ _ hmax hmin hn)
      rw [BoundsQ] at h3
      simp only [← h3] at this
      exact le_trans (this.2.2.2.2.2 i hi box hbox) (hv b (by simp))
    · exact ih h4 (fun c hc => hv c (by simp [hc])) i hi

theorem Chain.allLoGe {env : Env F} {coords : List (Box F)} {dim : Bool} {idx : List Nat} {lo hi : Nat}
    {bs : List (Bucket F)} (h : Chain (BoundsQ env coords dim) idx lo hi bs) (hmax : num env.floatMax)
    (hmin : num env.floatMin) (hn : ∀ b ∈ coords, num (b.lo dim) ∧ num (b.hi dim)) {v : F}
    (hv : ∀ b ∈ bs, v ≤ b.Rmin) : AllLoGe coords dim (seg idx lo hi) v := by
  induction bs generalizing lo with
  | nil => cases h; rw [seg_empty _ (Nat.le_refl _)]; simp [AllLoGe]
  | cons b bs ih =>
    obtain ⟨h1, h2, h3, h4⟩ := h
    rw [← seg_append_seg idx (Nat.le_add_right lo b.size) h1]
    intro i hi
    rcases List.mem_append.1 hi with hi | hi
    · intro box hbox
      have := (boundsFold_valid coords dim (seg idx lo (lo + b.size)) _ _ hmax hmin hn)
      rw [BoundsQ] at h3
      simp only [← h3] at this
      exact le_trans (hv b (by simp)) (this.2.2.2.2.1 i hi box hbox)
    · exact ih h4 (fun c hc => hv c (by simp [hc])) i hi

theorem Chain.num {env : Env F} {coords : List (Box F)} {dim : Bool} {idx : List Nat} {lo hi : Nat}
    {bs : List (Bucket F)} (h : Chain (BoundsQ env coords dim) idx lo hi bs) (hmax : num env.floatMax)
    (hmin : NumOrd.num env.floatMin) (hn : ∀ b ∈ coords, NumOrd.num (b.lo dim) ∧ NumOrd.num (b.hi dim)) :
    ∀ b ∈ bs, NumOrd.num b.Rmin ∧ NumOrd.num b.Lmax := by
  induction bs generalizing lo with
  | nil => simp
  | cons b bs ih =>
    obtain ⟨h1, h2, h3, h4⟩ := h
    intro c hc
    rcases List.mem_cons.1 hc with rfl | hc
    · have := (boundsFold_valid coords dim (seg idx lo (lo + c.size)) _ _ hmax hmin hn)
      rw [BoundsQ] at h3
      simp only [← h3] at this
      exact ⟨this.1, this.2.1⟩
    · exact ih h4 c hc

end

end Celltree
