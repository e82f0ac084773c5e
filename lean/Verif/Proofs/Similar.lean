import Verif.Proofs.BuildStep
import Mathlib.Data.List.Forall2

/-!
# Building from two lists of boxes with the same comparisons

If all comparisons that `build` makes have the same outcome for two lists of boxes, then the two trees have the same structure.
-/

set_option linter.unusedSectionVars false

namespace Celltree

/-! ## Related results -/

/-- Two computations end with related values, or fail with the same error. -/
def RelM {α β : Type} (S : α → β → Prop) : M α → M β → Prop
  | .ok a, .ok b => S a b
  | .error e, .error f => e = f
  | .ok _, .error _ => False
  | .error _, .ok _ => False

theorem RelM.bind {α β γ δ : Type} {S : α → β → Prop} {T : γ → δ → Prop} {x : M α} {y : M β} {f : α → M γ} {g : β → M δ}
    (h : RelM S x y) (k : ∀ a b, S a b → RelM T (f a) (g b)) : RelM T (x >>= f) (y >>= g) := by
  match x, y, h with
  | .ok a, .ok b, h => exact k a b h
  | .error e, .error f, h => exact h

theorem RelM.of_eq {α : Type} {x y : M α} (h : x = y) : RelM Eq x y := by
  subst h
  match x with
  | .ok _ => exact rfl
  | .error _ => exact rfl

theorem RelM.eq {α : Type} {x y : M α} (h : RelM Eq x y) : x = y := by
  match x, y, h with
  | .ok _, .ok _, h => exact congrArg _ h
  | .error _, .error _, h => exact congrArg _ h

theorem RelM.mono {α β : Type} {S T : α → β → Prop} {x : M α} {y : M β} (h : RelM S x y) (k : ∀ a b, S a b → T a b) :
    RelM T x y := by
  match x, y, h with
  | .ok _, .ok _, h => exact k _ _ h
  | .error _, .error _, h => exact h

theorem RelM.ok_left {α β : Type} {S : α → β → Prop} {x : M α} {y : M β} (h : RelM S x y) {a : α} (hx : x = .ok a) :
    ∃ b, y = .ok b ∧ S a b := by
  match x, y, h with
  | .ok _, .ok b, h => cases hx; exact ⟨b, rfl, h⟩

theorem RelM.error_iff {α β : Type} {S : α → β → Prop} {x : M α} {y : M β} (h : RelM S x y) (e : Err) :
    x = .error e ↔ y = .error e := by
  match x, y, h with
  | .ok _, .ok _, _ => exact ⟨nofun, nofun⟩
  | .error a, .error b, h => rw [show a = b from h]; exact ⟨fun k => Except.error.inj k ▸ rfl, fun k => Except.error.inj k ▸ rfl⟩

theorem rd_rel {α β : Type} {S : α → β → Prop} {l : List α} {m : List β} (h : List.Forall₂ S l m) (i : Nat) :
    RelM S (rd l i) (rd m i) := by
  unfold rd
  induction h generalizing i with
  | nil => exact rfl
  | cons h _ ih =>
    cases i with
    | zero => exact h
    | succ i => simpa using ih i

theorem wr_rel {α β : Type} {S : α → β → Prop} {l : List α} {m : List β} (h : List.Forall₂ S l m) (i : Nat) {a : α} {b : β}
    (hab : S a b) : RelM (List.Forall₂ S) (wr l i a) (wr m i b) := by
  unfold wr
  rw [h.length_eq]
  split
  · show List.Forall₂ S _ _
    rename_i hi
    clear hi
    induction h generalizing i with
    | nil => exact .nil
    | cons h ht ih =>
      cases i with
      | zero => exact .cons hab ht
      | succ i => exact .cons h (ih i)
  · exact rfl

theorem rdI_rel {α β : Type} {S : α → β → Prop} {l : List α} {m : List β} (h : List.Forall₂ S l m) (i : Int) :
    RelM S (rdI l i) (rdI m i) := by
  unfold rdI
  rw [h.length_eq]
  split
  · exact rfl
  · exact rd_rel h _

theorem mapM_rel {α β γ δ : Type} {S : α → β → Prop} {T : γ → δ → Prop} {l : List α} {m : List β} {f : α → M γ} {g : β → M δ}
    (h : List.Forall₂ S l m) (k : ∀ a b, S a b → RelM T (f a) (g b)) : RelM (List.Forall₂ T) (l.mapM f) (m.mapM g) := by
  induction h with
  | nil => exact List.Forall₂.nil
  | cons h _ ih =>
    rw [List.mapM_cons, List.mapM_cons]
    exact (k _ _ h).bind fun _ _ h1 => ih.bind fun _ _ h2 => List.Forall₂.cons h1 h2

variable {F : Type} [Add F] [Sub F] [Mul F] [Div F] [Zero F] [One F] [Neg F] [IntCast F]
  [LT F] [LE F] [BEq F] [DecidableLT F] [DecidableLE F]

/-! ## What has to agree -/

/-- The comparisons of the traversals, in each of the two dimensions, for two sets of coordinates with the relation `R`. -/
structure SimilarOrder (R : Bool → F → F → Prop) : Prop where
  lt : ∀ {d x x' y y'}, R d x x' → R d y y' → (x < y ↔ x' < y')
  le : ∀ {d x x' y y'}, R d x x' → R d y y' → (x ≤ y ↔ x' ≤ y')
  closer : ∀ {d x x' l l' r r'}, R d x x' → R d l l' → R d r r' → (l - x < x - r ↔ l' - x' < x' - r')

/-- The comparisons of `build`. -/
structure Similar (R : Bool → F → F → Prop) (env : Env F) (n : Nat) : Prop extends SimilarOrder R where
  max : ∀ {d x x'}, R d x x' → x < env.floatMax ∧ x' < env.floatMax
  min : ∀ {d x x'}, R d x x' → env.floatMin < x ∧ env.floatMin < x'
  below : ∀ {d lo lo' hi hi' a a' b b'}, R d lo lo' → R d hi hi' → R d a a' → R d b b' → ∀ i : Nat, i ≤ n →
    (lo + half * (hi - lo) < ((i : Nat) : Int) * ((b - a) / ((n : Int) : F)) + a ↔
      lo' + half * (hi' - lo') < ((i : Nat) : Int) * ((b' - a') / ((n : Int) : F)) + a')
  above : ∀ {d lo lo' hi hi' a a' b b'}, R d lo lo' → R d hi hi' → R d a a' → R d b b' → ∀ i : Nat, i ≤ n →
    (((i : Nat) : Int) * ((b - a) / ((n : Int) : F)) + a ≤ lo + half * (hi - lo) ↔
      ((i : Nat) : Int) * ((b' - a') / ((n : Int) : F)) + a' ≤ lo' + half * (hi' - lo'))
  zero : ∀ {d a a' b b'}, R d a a' → R d b b' → ((b - a) / ((n : Int) : F) == 0) = ((b' - a') / ((n : Int) : F) == 0)
  ratio : ∀ {d a a' b b' x x' y y'}, R d a a' → R d b b' → R d x x' → R d y y' → ((b - a) / ((n : Int) : F) == 0) = false →
    (y - x) / ((b - a) / ((n : Int) : F)) = (y' - x') / ((b' - a') / ((n : Int) : F))

/-- Related boxes. -/
def BoxRel (R : Bool → F → F → Prop) (b b' : Box F) : Prop := ∀ d, R d (b.lo d) (b'.lo d) ∧ R d (b.hi d) (b'.hi d)

/-- Related nodes. -/
structure NodeRel (R : Bool → F → F → Prop) (a b : Node F) : Prop where
  child : a.child = b.child
  ptr : a.ptr = b.ptr
  size : a.size = b.size
  dim : a.dim = b.dim
  bounds : a.child = -1 ∨ (R a.dim a.Lmax b.Lmax ∧ R a.dim a.Rmin b.Rmin)

section
variable {R : Bool → F → F → Prop} {env : Env F} {nb : Nat} {coords coords' : List (Box F)} {d : Bool}

/-- Buckets that accept the same boxes. -/
structure BucketRel (R : Bool → F → F → Prop) (d : Bool) (b b' : Bucket F) : Prop where
  index : b.index = b'.index
  size : b.size = b'.size
  test : ∀ box box', BoxRel R box box' → centroidTest b box d = centroidTest b' box' d

/-- Buckets with related bounds, if they are not empty. -/
structure BoundedRel (R : Bool → F → F → Prop) (d : Bool) (b b' : Bucket F) : Prop where
  index : b.index = b'.index
  size : b.size = b'.size
  bounds : b.size ≠ 0 → R d b.Rmin b'.Rmin ∧ R d b.Lmax b'.Lmax

/-- Buckets that are not empty, with related bounds. -/
structure FullRel (R : Bool → F → F → Prop) (d : Bool) (b b' : Bucket F) : Prop where
  index : b.index = b'.index
  size : b.size = b'.size
  full : b.size ≠ 0
  rmin : R d b.Rmin b'.Rmin
  lmax : R d b.Lmax b'.Lmax

/-! ## Sorting -/

theorem partitionFill_rel (hc : List.Forall₂ (BoxRel R) coords coords') {b b' : Bucket F} (hb : BucketRel R d b b') (l temp : List Nat)
    (ct : Nat) (cf : Int) : partitionFill coords b d l temp ct cf = partitionFill coords' b' d l temp ct cf := by
  induction l generalizing temp ct cf with
  | nil => rfl
  | cons i rest ih =>
    unfold partitionFill
    refine ((rd_rel hc i).bind (T := Eq) fun box box' h => RelM.of_eq ?_).eq
    rw [hb.test box box' h]
    simp only [ih]

theorem stablePartition_rel (hc : List.Forall₂ (BoxRel R) coords coords') {b b' : Bucket F} (hb : BucketRel R d b b') (idx : List Nat)
    (s e : Nat) : stablePartition idx coords s e b d = stablePartition idx coords' s e b' d := by
  unfold stablePartition
  simp only [partitionFill_rel hc hb]

theorem sortLoop_rel (hc : List.Forall₂ (BoxRel R) coords coords') {bs bs' : List (Bucket F)} (hb : List.Forall₂ (BucketRel R d) bs bs')
    (e : Nat) (pend : Int) (idx : List Nat) (cur : Nat) :
    RelM (fun r r' => List.Forall₂ (BucketRel R d) r.1 r'.1 ∧ r.2 = r'.2) (sortLoop coords d e pend bs idx cur)
      (sortLoop coords' d e pend bs' idx cur) := by
  induction hb generalizing pend idx cur with
  | nil =>
    unfold sortLoop
    split
    · exact ⟨.nil, rfl⟩
    · exact rfl
  | @cons b b' rest rest' h ht ih =>
    have h1 : BucketRel R d { b with index := pend } { b' with index := pend } := ⟨rfl, h.size, h.test⟩
    unfold sortLoop
    simp only
    split
    · exact ⟨.cons h1 ht, rfl⟩
    · rw [stablePartition_rel hc h1]
      refine (RelM.of_eq rfl).bind fun r r' hr => ?_
      subst hr
      obtain ⟨idx, cur⟩ := r
      simp only
      refine (ih _ _ _).bind fun r r' hr => ?_
      exact ⟨.cons ⟨rfl, rfl, h.test⟩ hr.1, hr.2⟩

theorem sortBboxIndices_rel (hc : List.Forall₂ (BoxRel R) coords coords') {bs bs' : List (Bucket F)}
    (hb : List.Forall₂ (BucketRel R d) bs bs') (idx : List Nat) {root root' : Node F} (hp : root.ptr = root'.ptr)
    (hs : root.size = root'.size) :
    RelM (fun r r' => List.Forall₂ (BucketRel R d) r.1 r'.1 ∧ r.2 = r'.2) (sortBboxIndices idx coords bs root d)
      (sortBboxIndices idx coords' bs' root' d) := by
  unfold sortBboxIndices
  rw [← hp, ← hs]
  cases hb with
  | nil => exact rfl
  | cons h ht => exact sortLoop_rel hc (.cons h ht) _ _ _ _

/-! ## Bounds -/

theorem getBoundsLoop_rel (hR : Similar R env nb) (hc : List.Forall₂ (BoxRel R) coords coords') (idx : List Nat) (n : Nat) (i : Int)
    {r r' l l' : F} (hr : R d r r') (hl : R d l l') :
    RelM (fun x x' => R d x.1 x'.1 ∧ R d x.2 x'.2) (getBoundsLoop coords idx d n i r l) (getBoundsLoop coords' idx d n i r' l') := by
  induction n generalizing i r r' l l' with
  | zero => exact ⟨hr, hl⟩
  | succ n ih =>
    unfold getBoundsLoop
    refine (RelM.of_eq rfl).bind fun k k' hk => ?_
    subst hk
    refine (rd_rel hc k).bind fun box box' hbox => ?_
    obtain ⟨h1, h2⟩ := hbox d
    simp only
    refine ih _ ?_ ?_
    · by_cases hlt : box.lo d < r
      · rw [if_pos hlt, if_pos ((hR.lt h1 hr).1 hlt)]; exact h1
      · rw [if_neg hlt, if_neg fun h => hlt ((hR.lt h1 hr).2 h)]; exact hr
    · by_cases hlt : l < box.hi d
      · rw [if_pos hlt, if_pos ((hR.lt hl h2).1 hlt)]; exact h2
      · rw [if_neg hlt, if_neg fun h => hlt ((hR.lt hl h2).2 h)]; exact hl

theorem getBounds_rel (hR : Similar R env nb) (hc : List.Forall₂ (BoxRel R) coords coords') (idx : List Nat) (i : Int) (n : Nat)
    (hn : n ≠ 0) :
    RelM (fun x x' => R d x.1 x'.1 ∧ R d x.2 x'.2) (getBounds env i n coords idx d) (getBounds env i n coords' idx d) := by
  obtain ⟨n, rfl⟩ := Nat.exists_eq_succ_of_ne_zero hn
  unfold getBounds getBoundsLoop
  refine (RelM.of_eq rfl).bind fun k k' hk => ?_
  subst hk
  refine (rd_rel hc k).bind fun box box' hbox => ?_
  obtain ⟨h1, h2⟩ := hbox d
  simp only
  rw [if_pos (hR.max h1).1, if_pos (hR.max h1).2, if_pos (hR.min h2).1, if_pos (hR.min h2).2]
  exact getBoundsLoop_rel hR hc idx n _ h1 h2

theorem boundBuckets_rel (hR : Similar R env nb) (hc : List.Forall₂ (BoxRel R) coords coords') (idx : List Nat)
    {bs bs' : List (Bucket F)} (hb : List.Forall₂ (BucketRel R d) bs bs') :
    RelM (List.Forall₂ (BoundedRel R d)) (boundBuckets env coords idx d bs) (boundBuckets env coords' idx d bs') := by
  unfold boundBuckets
  refine mapM_rel hb fun b b' h => ?_
  obtain ⟨Max, Min, Rmin, Lmax, index, size⟩ := b
  obtain ⟨Max', Min', Rmin', Lmax', index', size'⟩ := b'
  obtain rfl : index = index' := h.index
  obtain rfl : size = size' := h.size
  by_cases h0 : size = 0
  · subst h0
    exact ⟨rfl, rfl, fun hs => (hs rfl).elim⟩
  · exact (getBounds_rel hR hc idx _ _ h0).bind fun r r' hr => ⟨rfl, rfl, fun _ => hr⟩

theorem dropAux_rel {bs bs' : List (Bucket F)} (hb : List.Forall₂ (BoundedRel R d) bs bs') (m m' : F) :
    RelM (fun l l' => ∃ c c' r r', l = c :: r ∧ l' = c' :: r' ∧ FullRel R d c c' ∧ List.Forall₂ (BoundedRel R d) r r')
      (dropEmptyFront.dropAux m bs) (dropEmptyFront.dropAux m' bs') := by
  induction hb with
  | nil => exact rfl
  | @cons b b' _ _ h ht ih =>
    unfold dropEmptyFront.dropAux
    by_cases h0 : b.size = 0
    · rw [if_pos h0, if_pos (h.size ▸ h0)]
      exact ih
    · rw [if_neg h0, if_neg (h.size ▸ h0)]
      exact ⟨_, _, _, _, rfl, rfl, ⟨h.index, h.size, h0, (h.bounds h0).1, (h.bounds h0).2⟩, ht⟩

theorem dropEmptyFront_rel {bs bs' : List (Bucket F)} (hb : List.Forall₂ (BoundedRel R d) bs bs') :
    RelM (fun l l' => ∃ c c' r r', l = c :: r ∧ l' = c' :: r' ∧ FullRel R d c c' ∧ List.Forall₂ (BoundedRel R d) r r')
      (dropEmptyFront bs) (dropEmptyFront bs') := by
  cases hb with
  | nil => exact rfl
  | @cons b b' _ _ h ht =>
    unfold dropEmptyFront
    simp only
    by_cases h0 : b.size = 0
    · rw [if_pos h0, if_pos (h.size ▸ h0)]
      exact dropAux_rel ht _ _
    · rw [if_neg h0, if_neg (h.size ▸ h0)]
      exact ⟨_, _, _, _, rfl, rfl, ⟨h.index, h.size, h0, (h.bounds h0).1, (h.bounds h0).2⟩, ht⟩

theorem mergeEmpty_rel {b b' : Bucket F} {bs bs' : List (Bucket F)} (h : FullRel R d b b') (hb : List.Forall₂ (BoundedRel R d) bs bs') :
    List.Forall₂ (FullRel R d) (mergeEmpty b bs) (mergeEmpty b' bs') := by
  induction hb generalizing b b' with
  | nil => exact .cons h .nil
  | cons h1 ht ih =>
    unfold mergeEmpty
    rw [← h1.size]
    split
    · exact ih ⟨h.index, h.size, h.full, h.rmin, h.lmax⟩
    · rename_i h0
      exact .cons h (ih ⟨h1.index, h1.size, h0, (h1.bounds h0).1, (h1.bounds h0).2⟩)

/-! ## The splitting plane -/

theorem splitPlaneLoop_rel (hR : Similar R env nb) {a a' c c' : F} (ha : R d a a') (hb : R d c c') (rootSize : Nat) {b b' : Bucket F}
    {bs bs' : List (Bucket F)} (h : FullRel R d b b') (hbs : List.Forall₂ (FullRel R d) bs bs') (i : Nat) (inLeft : Int) (minCost : F)
    (plane : Option Nat) :
    splitPlaneLoop rootSize c a ((c - a) / ((nb : Int) : F)) i b bs inLeft minCost plane =
      splitPlaneLoop rootSize c' a' ((c' - a') / ((nb : Int) : F)) i b' bs' inLeft minCost plane := by
  induction hbs generalizing b b' i inLeft minCost plane with
  | nil => rfl
  | @cons x x' rest rest' h1 ht ih =>
    unfold splitPlaneLoop
    simp only
    unfold fdiv
    rw [← hR.zero ha hb]
    by_cases h0 : ((c - a) / ((nb : Int) : F) == 0) = true
    · simp only [if_pos h0]; rfl
    · simp only [if_neg h0]
      simp only [ok_bind]
      have h0' : ((c - a) / ((nb : Int) : F) == 0) = false := by simpa using h0
      rw [hR.ratio ha hb ha h.lmax h0', hR.ratio ha hb h1.rmin hb h0', h.size]
      split
      · exact ih h1 _ _ _ _
      · exact ih h1 _ _ _ _

theorem splitPlaneLoop_ge {rootSize : Nat} {c a bl : F} {i : Nat} {b : Bucket F} {bs : List (Bucket F)} {inLeft : Int} {minCost : F}
    {plane : Option Nat} (hi : 1 ≤ i) (hp : ∀ k, plane = some k → 1 ≤ k) {k : Nat}
    (h : splitPlaneLoop rootSize c a bl i b bs inLeft minCost plane = .ok (some k)) : 1 ≤ k := by
  induction bs generalizing i b inLeft minCost plane with
  | nil => exact hp k (Except.ok.inj h)
  | cons x rest ih =>
    unfold splitPlaneLoop at h
    simp only at h
    obtain ⟨_, _, h⟩ := bind_eq_ok.1 h
    obtain ⟨_, _, h⟩ := bind_eq_ok.1 h
    split at h
    · exact ih (by omega) (fun j hj => by cases hj; exact hi) h
    · exact ih (by omega) hp h

theorem maxLmax_rel (hR : Similar R env nb) {bs bs' : List (Bucket F)} (hb : List.Forall₂ (FullRel R d) bs bs') :
    (∀ m m', R d m m' → R d (maxLmax m bs) (maxLmax m' bs')) ∧ (bs ≠ [] → R d (maxLmax env.floatMin bs) (maxLmax env.floatMin bs')) := by
  have key : ∀ {bs bs' : List (Bucket F)}, List.Forall₂ (FullRel R d) bs bs' → ∀ m m', R d m m' →
      R d (maxLmax m bs) (maxLmax m' bs') := by
    intro bs bs' hb
    induction hb with
    | nil => exact fun _ _ h => h
    | cons h _ ih =>
      intro m m' hm
      simp only [maxLmax, List.foldl_cons]
      refine ih _ _ ?_
      rename_i x x' _ _ _
      by_cases hlt : m < x.Lmax
      · rw [if_pos hlt, if_pos ((hR.lt hm h.lmax).1 hlt)]; exact h.lmax
      · rw [if_neg hlt, if_neg fun g => hlt ((hR.lt hm h.lmax).2 g)]; exact hm
  refine ⟨key hb, fun hne => ?_⟩
  cases hb with
  | nil => exact (hne rfl).elim
  | cons h ht =>
    simp only [maxLmax, List.foldl_cons]
    refine key ht _ _ ?_
    rw [if_pos (hR.min h.lmax).1, if_pos (hR.min h.lmax).2]
    exact h.lmax

theorem minRmin_rel (hR : Similar R env nb) {bs bs' : List (Bucket F)} (hb : List.Forall₂ (FullRel R d) bs bs') :
    (∀ m m', R d m m' → R d (minRmin m bs) (minRmin m' bs')) ∧ (bs ≠ [] → R d (minRmin env.floatMax bs) (minRmin env.floatMax bs')) := by
  have key : ∀ {bs bs' : List (Bucket F)}, List.Forall₂ (FullRel R d) bs bs' → ∀ m m', R d m m' →
      R d (minRmin m bs) (minRmin m' bs') := by
    intro bs bs' hb
    induction hb with
    | nil => exact fun _ _ h => h
    | cons h _ ih =>
      intro m m' hm
      simp only [minRmin, List.foldl_cons]
      refine ih _ _ ?_
      rename_i x x' _ _ _
      by_cases hlt : x.Rmin < m
      · rw [if_pos hlt, if_pos ((hR.lt h.rmin hm).1 hlt)]; exact h.rmin
      · rw [if_neg hlt, if_neg fun g => hlt ((hR.lt h.rmin hm).2 g)]; exact hm
  refine ⟨key hb, fun hne => ?_⟩
  cases hb with
  | nil => exact (hne rfl).elim
  | cons h ht =>
    simp only [minRmin, List.foldl_cons]
    refine key ht _ _ ?_
    rw [if_pos (hR.max h.rmin).1, if_pos (hR.max h.rmin).2]
    exact h.rmin

theorem forall₂_take {α β : Type} {S : α → β → Prop} {l : List α} {m : List β} (h : List.Forall₂ S l m) (k : Nat) :
    List.Forall₂ S (l.take k) (m.take k) := by
  induction h generalizing k with
  | nil => simp
  | cons h _ ih =>
    cases k with
    | zero => exact .nil
    | succ k => exact .cons h (ih k)

theorem forall₂_drop {α β : Type} {S : α → β → Prop} {l : List α} {m : List β} (h : List.Forall₂ S l m) (k : Nat) :
    List.Forall₂ S (l.drop k) (m.drop k) := by
  induction h generalizing k with
  | nil => simp
  | cons h ht ih =>
    cases k with
    | zero => exact .cons h ht
    | succ k => exact ih k

theorem splitPlane_rel (hR : Similar R env nb) {a a' c c' : F} (ha : R d a a') (hb : R d c c') (rootSize : Nat)
    {bs bs' : List (Bucket F)} (hbs : List.Forall₂ (FullRel R d) bs bs') :
    RelM (fun r r' => r.1 = r'.1 ∧ ((bs[r.1]?).isSome → R d r.2.1 r'.2.1 ∧ R d r.2.2 r'.2.2))
      (splitPlane env bs rootSize c a ((c - a) / ((nb : Int) : F)))
      (splitPlane env bs' rootSize c' a' ((c' - a') / ((nb : Int) : F))) := by
  unfold splitPlane
  cases hbs with
  | nil => exact rfl
  | @cons b b' rest rest' h ht =>
    simp only
    rw [← splitPlaneLoop_rel hR ha hb rootSize h ht]
    cases hp : splitPlaneLoop rootSize c a ((c - a) / ((nb : Int) : F)) 1 b rest 0 env.floatMax none with
    | error e => exact rfl
    | ok plane =>
      cases plane with
      | none => exact rfl
      | some k =>
        have hk := splitPlaneLoop_ge (Nat.le_refl 1) (fun k hk => by cases hk) hp
        refine ⟨rfl, fun hs => ⟨(maxLmax_rel hR (forall₂_take (.cons h ht) k)).2 ?_, (minRmin_rel hR (forall₂_drop (.cons h ht) k)).2 ?_⟩⟩
        · cases k with
          | zero => omega
          | succ k => simp
        · intro hd
          have := List.drop_eq_nil_iff.1 hd
          simp only at hs
          rw [List.getElem?_eq_none this] at hs
          cases hs

/-! ## The loop of `build` -/

/-- Related states. -/
structure StateRel (R : Bool → F → F → Prop) (s s' : BuildState F) : Prop where
  nodes : List.Forall₂ (NodeRel R) s.nodes s'.nodes
  idx : s.idx = s'.idx
  stack : s.stack = s'.stack

theorem initBuckets_rel (hR : Similar R env nb) {a a' c c' : F} (ha : R d a a') (hb : R d c c') :
    List.Forall₂ (BucketRel R d) (initBuckets nb ((c - a) / ((nb : Int) : F)) a) (initBuckets nb ((c' - a') / ((nb : Int) : F)) a') := by
  unfold initBuckets
  rw [List.forall₂_map_left_iff, List.forall₂_map_right_iff, List.forall₂_same]
  intro i hi
  have hi := List.mem_range.1 hi
  refine ⟨rfl, rfl, fun box box' hbox => ?_⟩
  obtain ⟨h1, h2⟩ := hbox d
  unfold centroidTest
  simp only
  have e1 := hR.above h1 h2 ha hb i (by omega)
  have e2 := hR.below h1 h2 ha hb (i + 1) (by omega)
  congr 1
  · exact decide_eq_decide.2 e1
  · exact decide_eq_decide.2 e2

theorem pushNode_rel {cap : Nat} {nodes nodes' : List (Node F)} (h : List.Forall₂ (NodeRel R) nodes nodes') {nd nd' : Node F}
    (hn : NodeRel R nd nd') : RelM (List.Forall₂ (NodeRel R)) (pushNode cap nodes nd) (pushNode cap nodes' nd') := by
  unfold pushNode
  rw [h.length_eq]
  split
  · exact List.rel_append h (.cons hn .nil)
  · exact rfl

theorem createNode_rel (ptr size : Nat) (dim : Bool) : NodeRel R (createNode ptr size dim : Node F) (createNode ptr size dim) :=
  ⟨rfl, rfl, rfl, rfl, Or.inl rfl⟩

theorem splitNode_rel {P P' : BuildParams F} (hR : Similar R P.env P.nBuckets) (henv : P'.env = P.env) (hcap : P'.cap = P.cap)
    (hnb : P'.nBuckets = P.nBuckets) {s s' : BuildState F} (h : StateRel R s s') (k : Nat) {root root' : Node F}
    (hr : NodeRel R root root') {dim : Bool} (hd : root.dim = dim) {bs bs' : List (Bucket F)}
    (hbs : List.Forall₂ (FullRel R dim) bs bs') {a a' c c' : F} (ha : R dim a a') (hc : R dim c c') :
    RelM (StateRel R) (splitNode P s k root dim bs c a ((c - a) / ((P.nBuckets : Int) : F)))
      (splitNode P' s' k root' dim bs' c' a' ((c' - a') / ((P'.nBuckets : Int) : F))) := by
  unfold splitNode
  rw [henv, hcap, hnb, ← h.nodes.length_eq, ← h.stack, ← hr.size, ← hr.ptr]
  refine (splitPlane_rel hR ha hc root.size hbs).bind ?_
  rintro ⟨plane, Lmax, Rmin⟩ ⟨plane', Lmax', Rmin'⟩ ⟨e, hb⟩
  simp only at e hb ⊢
  subst e
  have hlen := hbs.length_eq
  by_cases hp : plane < bs.length
  swap
  · rw [List.getElem?_eq_none (by omega), List.getElem?_eq_none (by omega)]
    exact rfl
  have hbb : FullRel R dim bs[plane] (bs'[plane]'(hlen ▸ hp)) := hbs.get hp (hlen ▸ hp)
  have hs : (bs[plane]?).isSome = true := by rw [List.getElem?_eq_getElem hp]; rfl
  rw [List.getElem?_eq_getElem hp, List.getElem?_eq_getElem (hlen ▸ hp)]
  simp only [ok_bind]
  rw [← hbb.index]
  obtain ⟨hl, hm⟩ := hb hs
  refine (wr_rel h.nodes k ?_).bind fun n1 n1' hn1 => ?_
  · exact ⟨rfl, rfl, rfl, hr.dim, Or.inr (hd ▸ ⟨hl, hm⟩)⟩
  refine (pushNode_rel hn1 (createNode_rel _ _ _)).bind fun n2 n2' hn2 => ?_
  refine (pushNode_rel hn2 (createNode_rel _ _ _)).bind fun n3 n3' hn3 => ?_
  refine (RelM.of_eq rfl).bind fun st st' e => ?_
  subst e
  refine (RelM.of_eq rfl).bind fun st st' e => ?_
  subst e
  exact ⟨hn3, h.idx, rfl⟩

variable [NumOrd F]

theorem buildStep_rel {P P' : BuildParams F} {n : Nat} {t : BT} (hR : Similar R P.env P.nBuckets) (henv : P'.env = P.env)
    (hcap : P'.cap = P.cap) (hnb : P'.nBuckets = P.nBuckets) (hcpl : P'.cellsPerLeaf = P.cellsPerLeaf)
    (hc : List.Forall₂ (BoxRel R) P.coords P'.coords) {s s' : BuildState F} (hI : Inv P n t s) (hne : s.stack.toList ≠ [])
    (h : StateRel R s s') : RelM (StateRel R) (buildStep P s) (buildStep P' s') := by
  obtain ⟨⟨k, f⟩, rest, hst⟩ := List.exists_cons_of_ne_nil hne
  obtain ⟨stk1, hpop, hwf1, hrest⟩ := Stk.pop_spec hI.wf hst
  obtain ⟨a, b, hpd⟩ := hI.pend k f (by rw [hst]; simp)
  obtain ⟨root, hroot, hrd⟩ := hpd.dim
  obtain ⟨hab, nd, q1, q2, q3, q4⟩ := hI.ok.leaf_node hpd.leaf
  rw [hroot] at q1
  cases q1
  unfold buildStep
  rw [← h.stack, hpop]
  simp only [ok_bind]
  have hroot2 := rd_rel h.nodes k
  rw [rd_of_some hroot] at hroot2 ⊢
  obtain ⟨root', hr1, hr⟩ := hroot2.ok_left rfl
  rw [hr1]
  simp only [ok_bind]
  rw [show (((if f < 0 then f + 2 else f) : Int) != 0) = root.dim by rw [hrd]; rfl]
  have hdd := hr.dim
  generalize hd : root.dim = dim at hdd ⊢
  rw [← hr.size, ← hr.ptr, hcpl, henv, hnb, hcap, ← h.idx]
  by_cases hsmall : root.size ≤ P.cellsPerLeaf
  · rw [if_pos hsmall, if_pos hsmall]
    exact ⟨h.nodes, rfl, rfl⟩
  rw [if_neg hsmall, if_neg hsmall]
  refine (getBounds_rel hR hc s.idx root.ptr root.size (by omega)).bind ?_
  rintro ⟨rmin, lmax⟩ ⟨rmin', lmax'⟩ ⟨h1, h2⟩
  simp only at h1 h2 ⊢
  unfold fdiv
  by_cases h0 : (((P.nBuckets : Int) : F) == 0) = true
  · rw [if_pos h0, if_pos h0]; exact rfl
  rw [if_neg h0, if_neg h0]
  simp only [ok_bind]
  refine (sortBboxIndices_rel hc (initBuckets_rel hR h1 h2) s.idx hr.ptr hr.size).bind ?_
  rintro ⟨bs, idx⟩ ⟨bs', idx'⟩ ⟨hbs, e⟩
  simp only at hbs e ⊢
  subst e
  refine (boundBuckets_rel hR hc idx hbs).bind fun bs bs' hbs => ?_
  by_cases h12 : P.cellsPerLeaf = 1 ∧ root.size = 2
  · rw [if_pos h12, if_pos h12, ← h.nodes.length_eq]
    refine (wr_rel h.nodes k ?_).bind fun n1 n1' hn1 => ?_
    · exact ⟨rfl, rfl, rfl, hdd, Or.inr ⟨h2, h1⟩⟩
    refine (pushNode_rel hn1 (createNode_rel _ _ _)).bind fun n2 n2' hn2 => ?_
    refine (pushNode_rel hn2 (createNode_rel _ _ _)).bind fun n3 n3' hn3 => ?_
    exact ⟨hn3, rfl, rfl⟩
  rw [if_neg h12, if_neg h12]
  refine (dropEmptyFront_rel hbs).bind ?_
  rintro _ _ ⟨c, c', r, r', rfl, rfl, hcc, hrr⟩
  have hm := mergeEmpty_rel hcc hrr
  simp only
  generalize mergeEmpty c r = m at hm
  generalize mergeEmpty c' r' = m' at hm
  have hany : (m.any fun b => decide (b.size = root.size)) = (m'.any fun b => decide (b.size = root.size)) := by
    clear hcc hrr hbs
    induction hm with
    | nil => rfl
    | cons hx _ ih => rw [List.any_cons, List.any_cons, ih, hx.size]
  rw [← hany]
  by_cases hall : (m.any fun b => decide (b.size = root.size)) = true
  · rw [if_pos hall, if_pos hall]
    by_cases hf : f ≥ 0
    · rw [if_pos hf, if_pos hf]
      refine (wr_rel h.nodes k ?_).bind fun n1 n1' hn1 => ?_
      · exact ⟨hr.child, rfl, rfl, by simp only [hdd], Or.inl q2⟩
      refine (RelM.of_eq rfl).bind fun st st' e => ?_
      subst e
      exact ⟨hn1, rfl, rfl⟩
    · rw [if_neg hf, if_neg hf]
      refine (wr_rel h.nodes k ?_).bind fun n1 n1' hn1 => ?_
      · exact ⟨hr.child, rfl, rfl, hdd, Or.inl q2⟩
      exact ⟨hn1, rfl, rfl⟩
  · rw [if_neg hall, if_neg hall]
    have := splitNode_rel (P := P) (P' := P') hR henv hcap hnb (s := { s with idx := idx, stack := stk1 })
      (s' := { s' with idx := idx, stack := stk1 }) ⟨h.nodes, rfl, rfl⟩ k hr hd hm h1 h2
    rw [hnb] at this
    exact this

theorem buildLoop_rel {P P' : BuildParams F} {n : Nat} (hR : Similar R P.env P.nBuckets) (henv : P'.env = P.env)
    (hcap : P'.cap = P.cap) (hnb : P'.nBuckets = P.nBuckets) (hcpl : P'.cellsPerLeaf = P.cellsPerLeaf)
    (hc : List.Forall₂ (BoxRel R) P.coords P'.coords) (hnum : NumInput P.env P.coords) (hlen : P.coords.length = n)
    (hcap' : P.cap = pessimisticNNodes n) (fuel : Nat) {t : BT} {s s' : BuildState F} (hI : Inv P n t s) (h : StateRel R s s') :
    RelM (StateRel R) (buildLoop P fuel s) (buildLoop P' fuel s') := by
  induction fuel generalizing t s s' with
  | zero =>
    unfold buildLoop
    rw [← h.stack]
    split
    · exact rfl
    · exact h
  | succ fuel ih =>
    unfold buildLoop
    rw [← h.stack]
    by_cases hs : s.stack.size > 0
    · rw [if_pos hs, if_pos hs]
      have hne := (Stk.size_pos_iff hI.wf).1 hs
      have h1 := buildStep_rel hR henv hcap hnb hcpl hc hI hne h
      have h2 := buildStep_spec hnum hlen hcap' hI hne
      match hb : buildStep P s, hb' : buildStep P' s', h1, h2 with
      | .ok x, .ok y, h1, h2 =>
        obtain ⟨⟨t', ht'⟩, _⟩ := h2
        exact ih ht' h1
      | .error e, .error f, h1, _ => exact h1
    · rw [if_neg hs, if_neg hs]
      exact h

/-- Two lists of boxes with the same comparisons give trees of the same structure. -/
theorem initTree_rel (hR : Similar R env nb) (hc : List.Forall₂ (BoxRel R) coords coords') (hnum : NumInput env coords) (cpl : Nat) :
    RelM (fun r r' => List.Forall₂ (NodeRel R) r.1 r'.1 ∧ r.2 = r'.2) (initTree env coords.length coords nb cpl)
      (initTree env coords.length coords' nb cpl) := by
  unfold initTree
  simp only
  generalize hn : coords.length = n
  rw [pushNode_ok (pessimisticNNodes_pos n), ok_bind, ok_bind]
  obtain ⟨stk, h1, h2, h3⟩ := Stk.single_spec ((0 : Nat), (0 : Int))
  rw [h1, ok_bind, ok_bind]
  refine (buildLoop_rel (P := ⟨env, coords, nb, cpl, pessimisticNNodes n⟩)
    (P' := ⟨env, coords', nb, cpl, pessimisticNNodes n⟩) hR rfl rfl rfl rfl hc hnum hn rfl _
    (initial_inv h2 h3) ⟨.cons (createNode_rel _ _ _) .nil, rfl, rfl⟩).bind ?_
  intro s s' h
  exact ⟨h.nodes, h.idx⟩

end

end Celltree
