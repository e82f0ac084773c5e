import Verif.Proofs.BoxPairs
import Verif.Proofs.PairArea
import Verif.Proofs.Edges
import Verif.Proofs.Relabel
import Mathlib.Data.List.Forall2

/-!
# Queries of one call do not influence each other
-/

set_option linter.unusedSectionVars false

namespace Celltree

open List

/-! ## Lists -/

theorem forall₂_append_left {α β : Type} {R : α → β → Prop} {a b : List α} {c : List β} :
    Forall₂ R (a ++ b) c ↔ ∃ c₁ c₂, Forall₂ R a c₁ ∧ Forall₂ R b c₂ ∧ c = c₁ ++ c₂ := by
  induction a generalizing c with
  | nil => simp [forall₂_nil_left_iff]
  | cons x a ih =>
    simp only [cons_append, forall₂_cons_left_iff, ih]
    constructor
    · rintro ⟨y, _, h1, ⟨c₁, c₂, h2, h3, rfl⟩, rfl⟩
      exact ⟨y :: c₁, c₂, ⟨y, c₁, h1, h2, rfl⟩, h3, rfl⟩
    · rintro ⟨_, c₂, ⟨y, c₁, h1, h2, rfl⟩, h3, rfl⟩
      exact ⟨y, _, h1, ⟨c₁, c₂, h2, h3, rfl⟩, rfl⟩

theorem forall₂_iff_getElem? {α β : Type} {R : α → β → Prop} {a : List α} {c : List β} :
    Forall₂ R a c ↔ c.length = a.length ∧ ∀ (k : Nat) x y, a[k]? = some x → c[k]? = some y → R x y := by
  induction a generalizing c with
  | nil =>
    rw [forall₂_nil_left_iff]
    cases c <;> simp
  | cons x a ih =>
    cases c with
    | nil => simp
    | cons y c =>
      rw [forall₂_cons, ih]
      constructor
      · rintro ⟨h1, h2, h3⟩
        refine ⟨by simp [h2], ?_⟩
        intro k x' y' hx hy
        cases k with
        | zero => simp at hx hy; subst hx hy; exact h1
        | succ k => exact h3 k x' y' (by simpa using hx) (by simpa using hy)
      · rintro ⟨h1, h2⟩
        exact ⟨h2 0 x y rfl rfl, by simpa using h1, fun k x' y' hx hy => h2 (k + 1) x' y' (by simpa using hx) (by simpa using hy)⟩

/-- A parallel loop over a list. -/
theorem prange_forall₂ {α β : Type} {P : List α} {sched : List Nat} (hs : sched.Perm (List.range P.length)) {init : β}
    {body : Nat → M β} {f : α → M β} (hb : ∀ i x, P[i]? = some x → body i = f x) {cs : List β} :
    prange sched P.length init body = .ok cs ↔ Forall₂ (fun x c => f x = .ok c) P cs := by
  rw [prange_eq_ok hs, forall₂_iff_getElem?]
  constructor
  · rintro ⟨h1, h2⟩
    refine ⟨h1, ?_⟩
    intro k x y hx hy
    obtain ⟨hk, rfl⟩ := List.getElem?_eq_some_iff.1 hy
    rw [← hb k x hx]
    exact h2 k hk
  · rintro ⟨h1, h2⟩
    refine ⟨h1, ?_⟩
    intro i hi
    have hi' : i < P.length := by omega
    rw [hb i P[i] (by simp [hi'])]
    exact h2 i P[i] cs[i] (by simp [hi']) (by simp [hi])

/-! ## Pairs -/

/-- The pairs of all queries, numbered from `k`. -/
def tagged {α : Type} (k : Nat) (parts : List (List α)) : List (Nat × α) :=
  (parts.zipIdx k).flatMap fun p => p.1.map fun y => (p.2, y)

theorem tagged_cons {α : Type} (k : Nat) (p : List α) (parts : List (List α)) :
    tagged k (p :: parts) = p.map (fun y => (k, y)) ++ tagged (k + 1) parts := rfl

theorem tagged_map {α β : Type} (k : Nat) (l : List α) (h : α → List β) :
    tagged k (l.map h) = (l.zipIdx k).flatMap fun p => (h p.1).map fun j => (p.2, j) := by
  induction l generalizing k with
  | nil => rfl
  | cons a l ih => rw [map_cons, tagged_cons, ih]; rfl

theorem batch_pairs {β γ : Type} {keep : γ → Bool} {T : Nat × Nat → γ → Prop} {T' : β → Nat → γ → Prop} {h : β → List Nat}
    (bs : List β) (k : Nat) (hT : ∀ i b, bs[i]? = some b → ∀ j c, T (i + k, j) c ↔ T' b j c) (L : List (Nat × Nat × γ)) :
    (∃ cs, Forall₂ T (tagged k (bs.map h)) cs ∧
      L = (((tagged k (bs.map h)).zip cs).filter fun x => keep x.2).map fun x => (x.1.1, x.1.2, x.2)) ↔
    ∃ parts : List (List (Nat × γ)), Forall₂ (fun b part => ∃ cs, Forall₂ (T' b) (h b) cs ∧
      part = ((h b).zip cs).filter fun x => keep x.2) bs parts ∧ L = tagged k parts := by
  induction bs generalizing k L with
  | nil =>
    constructor
    · rintro ⟨cs, h1, rfl⟩
      exact ⟨[], Forall₂.nil, by simp [tagged]⟩
    · rintro ⟨parts, h1, rfl⟩
      rw [forall₂_nil_left_iff] at h1
      subst h1
      exact ⟨[], Forall₂.nil, by simp [tagged]⟩
  | cons b bs ih =>
    have ih' := ih (k + 1) (fun i b' hb j c => by
      rw [show i + (k + 1) = i + 1 + k by omega]; exact hT (i + 1) b' (by simpa using hb) j c)
    have hb : ∀ j c, T (k, j) c ↔ T' b j c := fun j c => by simpa using hT 0 b rfl j c
    have hpart : ∀ cs : List γ, Forall₂ T ((h b).map fun j => (k, j)) cs ↔ Forall₂ (T' b) (h b) cs := by
      intro cs
      rw [forall₂_map_left_iff]
      simp only [hb]
    have hfil : ∀ c₁ : List γ, ((((h b).map fun j => (k, j)).zip c₁).filter fun x => keep x.2).map
        (fun x => (x.1.1, x.1.2, x.2)) = (((h b).zip c₁).filter fun x => keep x.2).map fun y => (k, y) := by
      intro c₁
      generalize h b = l
      induction l generalizing c₁ with
      | nil => rfl
      | cons j l ihl =>
        cases c₁ with
        | nil => rfl
        | cons c c₁ =>
          simp only [map_cons, zip_cons_cons, filter_cons]
          split
          · simp [ihl]
          · exact ihl c₁
    simp only [map_cons, tagged_cons]
    constructor
    · rintro ⟨cs, h1, rfl⟩
      obtain ⟨c₁, c₂, h2, h3, rfl⟩ := forall₂_append_left.1 h1
      obtain ⟨parts, h4, h5⟩ := (ih' _).1 ⟨c₂, h3, rfl⟩
      refine ⟨(((h b).zip c₁).filter fun x => keep x.2) :: parts, Forall₂.cons ⟨c₁, (hpart c₁).1 h2, rfl⟩ h4, ?_⟩
      rw [tagged_cons, ← h5, zip_append (by simpa using h2.length_eq), filter_append, map_append, hfil]
    · rintro ⟨parts', h1, rfl⟩
      cases h1 with
      | cons h2 h3 =>
        obtain ⟨c₁, h4, rfl⟩ := h2
        obtain ⟨c₂, h5, h6⟩ := (ih' _).2 ⟨_, h3, rfl⟩
        refine ⟨c₁ ++ c₂, forall₂_append_left.2 ⟨c₁, c₂, (hpart c₁).2 h4, h5, rfl⟩, ?_⟩
        rw [tagged_cons, h6, zip_append (by simpa using h4.length_eq), filter_append, map_append, hfil]

/-- The mask that keeps some of the pairs. -/
theorem applyMask_left {α β γ : Type} (P : List α) (cs : List γ) (hl : cs.length = P.length) (keep : γ → Bool) (f : α → β) :
    applyMask (cs.map keep) (P.map f) = ((P.zip cs).filter fun x => keep x.2).map fun x => f x.1 := by
  unfold applyMask
  induction P generalizing cs with
  | nil => simp
  | cons a P ih =>
    cases cs with
    | nil => simp at hl
    | cons c cs =>
      have := ih cs (by simpa using hl)
      simp only [map_cons, zip_cons_cons, filter_cons]
      cases keep c <;> simp_all

theorem applyMask_right {α γ : Type} (P : List α) (cs : List γ) (hl : cs.length = P.length) (keep : γ → Bool) :
    applyMask (cs.map keep) cs = ((P.zip cs).filter fun x => keep x.2).map fun x => x.2 := by
  unfold applyMask
  induction P generalizing cs with
  | nil =>
    cases cs with
    | nil => rfl
    | cons c cs => simp at hl
  | cons a P ih =>
    cases cs with
    | nil => simp at hl
    | cons c cs =>
      have := ih cs (by simpa using hl)
      simp only [map_cons, zip_cons_cons, filter_cons]
      cases keep c <;> simp_all

/-- The number of the query of every entry of the result. -/
def joinIdx {α : Type} (parts : List (List α)) : List Nat := (tagged 0 parts).map Prod.fst

theorem joinIdx_single {α : Type} (p : List α) : joinIdx [p] = p.map fun _ => 0 := by
  simp only [joinIdx, tagged, zipIdx_cons, zipIdx_nil, flatMap_cons, flatMap_nil, append_nil, map_map]; rfl

theorem tagged_snd {α : Type} (k : Nat) (parts : List (List α)) : (tagged k parts).map Prod.snd = parts.flatten := by
  induction parts generalizing k with
  | nil => rfl
  | cons p parts ih => rw [tagged_cons, map_append, ih, flatten_cons]; simp [Function.comp_def]

/-- From a description of the results by parts, to calls with a single query. -/
theorem batched {β γ ρ : Type} {run : List β → M ρ} {run1 : β → M ρ} {One : β → List γ → Prop} {cols : List (List γ) → ρ}
    {bs : List β} {r : ρ} (h : run bs = .ok r ↔ ∃ parts, Forall₂ One bs parts ∧ r = cols parts)
    (h1 : ∀ b ∈ bs, ∀ r, run1 b = .ok r ↔ ∃ part, One b part ∧ r = cols [part])
    (hinj : ∀ p p', cols [p] = cols [p'] → p = p') :
    run bs = .ok r ↔ ∃ parts, parts.length = bs.length ∧
      (∀ (k : Nat) b part, bs[k]? = some b → parts[k]? = some part → run1 b = .ok (cols [part])) ∧ r = cols parts := by
  rw [h]
  constructor
  · rintro ⟨parts, h2, h3⟩
    rw [forall₂_iff_getElem?] at h2
    exact ⟨parts, h2.1, fun k b part hb hp => (h1 b (mem_of_getElem? hb) _).2 ⟨part, h2.2 k b part hb hp, rfl⟩, h3⟩
  · rintro ⟨parts, h2, h3, h4⟩
    refine ⟨parts, forall₂_iff_getElem?.2 ⟨h2, ?_⟩, h4⟩
    intro k b part hb hp
    obtain ⟨p, h5, h6⟩ := (h1 b (mem_of_getElem? hb) _).1 (h3 k b part hb hp)
    rw [hinj _ _ h6]
    exact h5

theorem forall₂_single {α β : Type} {R : α → β → Prop} {a : α} {l : List β} : Forall₂ R [a] l ↔ ∃ b, R a b ∧ l = [b] := by
  rw [forall₂_cons_left_iff]
  simp only [forall₂_nil_left_iff]
  constructor
  · rintro ⟨b, u, h1, rfl, rfl⟩
    exact ⟨b, h1, rfl⟩
  · rintro ⟨b, h1, rfl⟩
    exact ⟨b, [], h1, rfl, rfl⟩

variable {F : Type} [Add F] [Sub F] [Mul F] [Div F] [Neg F] [Zero F] [One F] [IntCast F]
  [LT F] [LE F] [BEq F] [DecidableLT F] [DecidableLE F]

/-! ## Boxes -/

theorem boxPairs_eq (tree : Tree F) (bt : BT) (boxes : List (Box F)) :
    boxPairs tree bt boxes = tagged 0 (boxes.map (boxHits tree bt)) := (tagged_map 0 boxes _).symm

section
variable {t : CellTree F} {bt : BT}

/-- The area of overlap of a box and a face. -/
def boxArea (t : CellTree F) (b : Box F) (j : Nat) : M F := do
  let face ← rd t.data.elements j
  let v ← copyVertices t.data.vertices face
  polygonPolygonClipArea (copyBoxVertices b) v

def OneBox (t : CellTree F) (bt : BT) (b : Box F) (part : List (Nat × F)) : Prop :=
  ∃ cs, Forall₂ (fun j c => boxArea t b j = .ok c) (boxHits t.data bt b) cs ∧
    part = ((boxHits t.data bt b).zip cs).filter fun x => decide (x.2 > 0)

theorem intersectBoxes_iff (h : TreeOk t.data bt) (boxes : List (Box F)) {n : Nat} (hn : 0 < n) {sched : List Nat}
    (hs : sched.Perm (List.range n)) {sched2 : Nat → List Nat} (hs2 : ∀ n, (sched2 n).Perm (List.range n))
    (r : List Nat × List Nat × List F) :
    t.intersectBoxes boxes n sched sched2 = .ok r ↔ ∃ parts, Forall₂ (OneBox t bt) boxes parts ∧
      r = (joinIdx parts, parts.flatten.map Prod.fst, parts.flatten.map Prod.snd) := by
  unfold CellTree.intersectBoxes
  rw [locateBoxes_spec h boxes hn hs, ok_bind]
  simp only
  have hP := boxPairs_eq t.data bt boxes
  generalize boxPairs t.data bt boxes = P at hP
  have harea : ∀ cs, boxAreaOfIntersection boxes t.data.vertices t.data.elements (P.map Prod.fst) (P.map Prod.snd)
      (sched2 (P.map Prod.fst).length) = .ok cs ↔
      Forall₂ (fun x c => (rd boxes x.1 >>= fun b => boxArea t b x.2) = .ok c) P cs := by
    intro cs
    unfold boxAreaOfIntersection
    rw [length_map]
    apply prange_forall₂ (hs2 _)
    intro i x hx
    rw [rd_of_some (by rw [getElem?_map, hx]; rfl), rd_of_some (by rw [getElem?_map, hx]; rfl)]
    rfl
  rw [bind_eq_ok]
  simp only [harea]
  have key := batch_pairs (keep := fun a : F => decide (a > 0)) (T := fun x c => (rd boxes x.1 >>= fun b => boxArea t b x.2) = .ok c)
    (T' := fun b j c => boxArea t b j = .ok c) (h := boxHits t.data bt) boxes 0 (by
      intro i b hb j c
      simp only [Nat.add_zero]
      rw [rd_of_some hb, ok_bind])
  rw [← hP] at key
  constructor
  · rintro ⟨cs, h1, h2⟩
    obtain ⟨parts, h3, h4⟩ := (key _).1 ⟨cs, h1, rfl⟩
    refine ⟨parts, h3, ?_⟩
    rw [← Except.ok.inj h2, applyMask_left _ _ h1.length_eq.symm, applyMask_left _ _ h1.length_eq.symm,
      applyMask_right P _ h1.length_eq.symm, joinIdx, ← tagged_snd 0, ← h4]
    simp [Function.comp_def]
  · rintro ⟨parts, h3, rfl⟩
    obtain ⟨cs, h1, h4⟩ := (key _).2 ⟨parts, h3, rfl⟩
    refine ⟨cs, h1, ?_⟩
    rw [applyMask_left _ _ h1.length_eq.symm, applyMask_left _ _ h1.length_eq.symm,
      applyMask_right P _ h1.length_eq.symm, joinIdx, ← tagged_snd 0, h4]
    simp [Function.comp_def]

theorem locateBoxes_iff (h : TreeOk t.data bt) (boxes : List (Box F)) {n : Nat} (hn : 0 < n) {sched : List Nat}
    (hs : sched.Perm (List.range n)) (r : List Nat × List Nat) :
    t.locateBoxes boxes n sched = .ok r ↔ ∃ parts, Forall₂ (fun b part => part = boxHits t.data bt b) boxes parts ∧
      r = (joinIdx parts, parts.flatten) := by
  unfold CellTree.locateBoxes
  rw [locateBoxes_spec h boxes hn hs, boxPairs_eq, tagged_snd]
  have : ∀ parts, Forall₂ (fun b part => part = boxHits t.data bt b) boxes parts ↔ parts = boxes.map (boxHits t.data bt) := by
    intro parts
    induction boxes generalizing parts with
    | nil => rw [forall₂_nil_left_iff]; rfl
    | cons b boxes ih =>
      rw [forall₂_cons_left_iff]
      simp only [ih]
      constructor
      · rintro ⟨_, _, rfl, rfl, rfl⟩; rfl
      · rintro rfl; exact ⟨_, _, rfl, rfl, rfl⟩
  simp only [this]
  constructor
  · intro h; cases h; exact ⟨_, rfl, rfl⟩
  · rintro ⟨_, rfl, rfl⟩; rfl

end

/-! ## Faces -/

theorem forall₂_exists_map {α β γ : Type} {A : α → γ → Prop} {g : γ → β} {l : List α} {bs : List β} :
    Forall₂ (fun a b => ∃ c, A a c ∧ b = g c) l bs ↔ ∃ cs, Forall₂ A l cs ∧ bs = cs.map g := by
  induction l generalizing bs with
  | nil =>
    rw [forall₂_nil_left_iff]
    constructor
    · rintro rfl; exact ⟨[], Forall₂.nil, rfl⟩
    · rintro ⟨cs, h, rfl⟩; rw [forall₂_nil_left_iff] at h; subst h; rfl
  | cons a l ih =>
    rw [forall₂_cons_left_iff]
    simp only [ih]
    constructor
    · rintro ⟨_, _, ⟨c, h1, rfl⟩, ⟨cs, h2, rfl⟩, rfl⟩
      exact ⟨c :: cs, Forall₂.cons h1 h2, rfl⟩
    · rintro ⟨_, h, rfl⟩
      cases h with
      | cons h1 h2 => exact ⟨_, _, ⟨_, h1, rfl⟩, ⟨_, h2, rfl⟩, rfl⟩

theorem forall₂_zip_exists {α β γ : Type} {A : α → β → Prop} {B : α × β → γ → Prop} {l : List α} {cs : List γ} :
    Forall₂ (fun a c => ∃ b, A a b ∧ B (a, b) c) l cs ↔ ∃ bs, Forall₂ A l bs ∧ Forall₂ B (l.zip bs) cs := by
  induction l generalizing cs with
  | nil =>
    rw [forall₂_nil_left_iff]
    constructor
    · rintro rfl; exact ⟨[], Forall₂.nil, Forall₂.nil⟩
    · rintro ⟨bs, h, h'⟩; rwa [zip_nil_left, forall₂_nil_left_iff] at h'
  | cons a l ih =>
    rw [forall₂_cons_left_iff]
    simp only [ih]
    constructor
    · rintro ⟨c, cs, ⟨b, h1, h2⟩, ⟨bs, h3, h4⟩, rfl⟩
      exact ⟨b :: bs, Forall₂.cons h1 h3, Forall₂.cons h2 h4⟩
    · rintro ⟨_, h, h'⟩
      cases h with
      | cons h1 h2 =>
        cases h' with
        | cons h3 h4 => exact ⟨_, _, ⟨_, h1, h3⟩, ⟨_, h2, h4⟩, rfl⟩

theorem tagged_map_map {α β : Type} (k : Nat) (parts : List (List α)) (g : α → β) :
    tagged k (parts.map (List.map g)) = (tagged k parts).map fun x => (x.1, g x.2) := by
  induction parts generalizing k with
  | nil => rfl
  | cons p parts ih => rw [map_cons, tagged_cons, tagged_cons, map_append, ih]; simp [Function.comp_def]

section
variable {env : Env F} {t : CellTree F} {bt : BT} {vs : List (Pt F)} {rows : List (List Int)}

/-- The cells found for the bounding box of a query face. -/
def faceHits (t : CellTree F) (bt : BT) (vs : List (Pt F)) (r : List Int) : List Nat :=
  match (do let r' ← ccwFace vs r; boundingBox r' vs : M (Box F)) with
  | .ok b => boxHits t.data bt b
  | .error _ => []

/-- The test of a query face and a face of the tree. -/
def pairTest (env : Env F) (t : CellTree F) (vs : List (Pt F)) (r : List Int) (j : Nat) : M Bool := do
  let r' ← ccwFace vs r
  let faceB ← rd t.data.elements j
  let a ← copyVertices vs r'
  let b ← copyVertices t.data.vertices faceB
  let ab ← separatingAxes env a b
  if ab then separatingAxes env b a else .ok false

/-- The area of overlap of a query face and a face of the tree. -/
def faceArea (t : CellTree F) (vs : List (Pt F)) (r : List Int) (j : Nat) : M F := do
  let r' ← ccwFace vs r
  let faceB ← rd t.data.elements j
  let a ← copyVertices vs r'
  let b ← copyVertices t.data.vertices faceB
  polygonPolygonClipArea a b

def OneLoc (env : Env F) (t : CellTree F) (bt : BT) (vs : List (Pt F)) (r : List Int) (p : List Nat) : Prop :=
  ∃ q : List (Nat × Bool), (∃ cs, Forall₂ (fun j c => pairTest env t vs r j = .ok c) (faceHits t bt vs r) cs ∧
    q = ((faceHits t bt vs r).zip cs).filter fun x => x.2) ∧ p = q.map Prod.fst

def OneArea (env : Env F) (t : CellTree F) (bt : BT) (vs : List (Pt F)) (r : List Int) (p : List (Nat × F)) : Prop :=
  ∃ js, OneLoc env t bt vs r js ∧ ∃ cs, Forall₂ (fun j c => faceArea t vs r j = .ok c) js cs ∧
    p = (js.zip cs).filter fun x => decide (x.2 > 0)

/-- The two steps that prepare a query face do not raise. -/
def RowOk (vs : List (Pt F)) (r : List Int) : Prop := ∃ r' b, ccwFace vs r = .ok r' ∧ boundingBox r' vs = .ok b

theorem RowOk.choose (h : ∀ r ∈ rows, RowOk vs r) : ∃ (f : List Int → List Int) (g : List Int → Box F),
    ∀ r ∈ rows, ccwFace vs r = .ok (f r) ∧ boundingBox (f r) vs = .ok (g r) := by
  have hf : ∀ r : List Int, ∃ r', r ∈ rows → ccwFace vs r = .ok r' := by
    intro r
    by_cases hr : r ∈ rows
    · obtain ⟨r', _, h1, _⟩ := h r hr
      exact ⟨r', fun _ => h1⟩
    · exact ⟨r, fun h => (hr h).elim⟩
  obtain ⟨f, hf⟩ := Classical.axiomOfChoice hf
  have hg : ∀ r : List Int, ∃ b : Option (Box F), r ∈ rows → ∃ c, b = some c ∧ boundingBox (f r) vs = .ok c := by
    intro r
    by_cases hr : r ∈ rows
    · obtain ⟨r', b, h1, h2⟩ := h r hr
      rw [hf r hr] at h1
      cases h1
      exact ⟨some b, fun _ => ⟨b, rfl, h2⟩⟩
    · exact ⟨none, fun h => (hr h).elim⟩
  obtain ⟨g, hg⟩ := Classical.axiomOfChoice hg
  refine ⟨f, fun r => (g r).getD ⟨0, 0, 0, 0⟩, fun r hr => ⟨hf r hr, ?_⟩⟩
  obtain ⟨c, h1, h2⟩ := hg r hr
  simp only [h1, h2, Option.getD_some]

theorem mapM_map_ok {α β : Type} {f : α → M β} {g : α → β} {l : List α} (h : ∀ a ∈ l, f a = .ok (g a)) :
    l.mapM f = .ok (l.map g) := by
  induction l with
  | nil => rfl
  | cons a l ih =>
    rw [mapM_cons, h a (by simp), ok_bind, ih (fun a ha => h a (by simp [ha])), ok_bind]
    rfl

theorem locateFaces_iff (h : TreeOk t.data bt) (nc : Nat) (hrows : ∀ r ∈ rows, RowOk vs r) {n : Nat} (hn : 0 < n)
    {sched sched1 : List Nat} (hs : sched.Perm (List.range rows.length)) (hs1 : sched1.Perm (List.range n))
    {sched2 : Nat → List Nat} (hs2 : ∀ n, (sched2 n).Perm (List.range n)) :
    ∃ f : List Int → List Int, (∀ r ∈ rows, ccwFace vs r = .ok (f r)) ∧ ∀ x,
    t.locateFaces env vs ⟨nc, rows⟩ n sched sched1 sched2 = .ok x ↔ ∃ parts, Forall₂ (OneLoc env t bt vs) rows parts ∧
      x = (rows.map f, joinIdx parts, parts.flatten) := by
  obtain ⟨f, g, hfg⟩ := RowOk.choose hrows
  refine ⟨f, fun r hr => (hfg r hr).1, fun x => ?_⟩
  unfold CellTree.locateFaces
  rw [counterClockwise_ok hs f fun r hr => (hfg r hr).1, ok_bind]
  have hb : buildFaceBboxes (rows.map f) vs = .ok (rows.map g) := by
    unfold buildFaceBboxes
    rw [mapM_map_ok (g := fun r' => match boundingBox r' vs with | .ok b => b | .error _ => ⟨0, 0, 0, 0⟩)]
    · rw [map_map]
      congr 1
      apply map_congr_left
      intro r hr
      simp only [Function.comp, (hfg r hr).2]
    · intro r' hr'
      obtain ⟨r, hr, rfl⟩ := mem_map.1 hr'
      simp only [(hfg r hr).2]
  rw [hb, ok_bind, locateBoxes_spec h _ hn hs1, ok_bind]
  simp only
  have hP := boxPairs_eq t.data bt (rows.map g)
  have hhits : (rows.map g).map (boxHits t.data bt) = rows.map (faceHits t bt vs) := by
    rw [map_map]
    apply map_congr_left
    intro r hr
    unfold faceHits
    rw [(hfg r hr).1, ok_bind, (hfg r hr).2]
    rfl
  rw [hhits] at hP
  generalize boxPairs t.data bt (rows.map g) = P at hP
  have htest : ∀ cs, polygonsIntersect env vs t.data.vertices (rows.map f) t.data.elements (P.map Prod.fst) (P.map Prod.snd)
      (sched2 (P.map Prod.fst).length) = .ok cs ↔
      Forall₂ (fun x c => (rd rows x.1 >>= fun r => pairTest env t vs r x.2) = .ok c) P cs := by
    intro cs
    unfold polygonsIntersect
    rw [length_map]
    apply prange_forall₂ (hs2 _)
    intro i x hx
    rw [rd_of_some (by rw [getElem?_map, hx]; rfl), rd_of_some (by rw [getElem?_map, hx]; rfl)]
    simp only [ok_bind]
    cases hx1 : rows[x.1]? with
    | none =>
      have e1 : rd (rows.map f) x.1 = .error .oob := by unfold rd; rw [getElem?_map, hx1]; rfl
      have e2 : rd rows x.1 = .error .oob := by unfold rd; rw [hx1]
      rw [e1, e2]
      rfl
    | some r =>
      rw [rd_of_some (by rw [getElem?_map, hx1]; rfl), rd_of_some hx1]
      simp only [ok_bind]
      unfold pairTest
      rw [(hfg r (mem_of_getElem? hx1)).1, ok_bind]
  rw [bind_eq_ok]
  simp only [htest]
  have key := batch_pairs (keep := fun b : Bool => b) (T := fun x c => (rd rows x.1 >>= fun r => pairTest env t vs r x.2) = .ok c)
    (T' := fun r j c => pairTest env t vs r j = .ok c) (h := faceHits t bt vs) rows 0 (by
      intro i b hb j c
      simp only [Nat.add_zero]
      rw [rd_of_some hb, ok_bind])
  rw [← hP] at key
  have hmask : ∀ cs : List Bool, applyMask cs = applyMask (α := Nat) (cs.map fun b => b) := fun cs => by rw [map_id']
  constructor
  · rintro ⟨cs, h1, h2⟩
    obtain ⟨parts, h3, h4⟩ := (key _).1 ⟨cs, h1, rfl⟩
    refine ⟨parts.map (List.map Prod.fst), forall₂_exists_map.2 ⟨parts, h3, rfl⟩, ?_⟩
    rw [← Except.ok.inj h2, hmask, applyMask_left _ _ h1.length_eq.symm, applyMask_left _ _ h1.length_eq.symm, joinIdx,
      ← tagged_snd 0, tagged_map_map, ← h4]
    simp [Function.comp_def]
  · rintro ⟨parts', h3, rfl⟩
    obtain ⟨parts, h5, rfl⟩ := forall₂_exists_map.1 h3
    obtain ⟨cs, h1, h4⟩ := (key _).2 ⟨parts, h5, rfl⟩
    refine ⟨cs, h1, ?_⟩
    rw [hmask, applyMask_left _ _ h1.length_eq.symm, applyMask_left _ _ h1.length_eq.symm, joinIdx,
      ← tagged_snd 0, tagged_map_map, h4]
    simp [Function.comp_def]

theorem intersectFaces_iff (h : TreeOk t.data bt) {q : IntArr} {fill : Int} (hcast : castFaces q fill = .ok ⟨q.ncol, rows⟩)
    (hrows : ∀ r ∈ rows, RowOk vs r) {H : Heap} {ref : Nat} (hH : H[ref]? = some q) {n : Nat} (hn : 0 < n)
    {sched sched1 : List Nat} (hs : sched.Perm (List.range rows.length)) (hs1 : sched1.Perm (List.range n))
    {sched2 sched3 : Nat → List Nat} (hs2 : ∀ n, (sched2 n).Perm (List.range n)) (hs3 : ∀ n, (sched3 n).Perm (List.range n))
    (x : List Nat × List Nat × List F) :
    Prod.snd <$> t.intersectFacesH env H vs ref fill n sched sched1 sched2 sched3 = .ok x ↔
      ∃ parts, Forall₂ (OneArea env t bt vs) rows parts ∧
        x = (joinIdx parts, parts.flatten.map Prod.fst, parts.flatten.map Prod.snd) := by
  obtain ⟨f, hf, hloc⟩ := locateFaces_iff (env := env) h q.ncol hrows hn hs hs1 hs2
  have hmap : ∀ {α β : Type} (y : M (α × β)) (b : β), Prod.snd <$> y = .ok b ↔ ∃ a, y = .ok (a, b) := by
    intro α β y b
    cases y with
    | error e =>
      constructor
      · intro h; cases h
      · rintro ⟨_, h⟩; cases h
    | ok y =>
      constructor
      · intro h; exact ⟨y.1, by rw [← Except.ok.inj h]⟩
      · rintro ⟨a, h⟩; cases h; rfl
  have hw : ∀ (G : Heap) (a b : IntArr), wr (G ++ [a]) G.length b = .ok (G ++ [b]) := by
    intro G a b
    rw [wr_of_lt (by simp)]
    simp
  have hbody : ∀ x, (∃ a, t.intersectFacesH env H vs ref fill n sched sched1 sched2 sched3 = .ok (a, x)) ↔
      ∃ parts1, Forall₂ (OneLoc env t bt vs) rows parts1 ∧
        ∃ area, areaOfIntersection vs t.data.vertices (rows.map f) t.data.elements (joinIdx parts1) parts1.flatten
          (sched3 (joinIdx parts1).length) = .ok area ∧
        x = (applyMask (area.map fun a => decide (a > 0)) (joinIdx parts1),
          applyMask (area.map fun a => decide (a > 0)) parts1.flatten, applyMask (area.map fun a => decide (a > 0)) area) := by
    intro x
    unfold CellTree.intersectFacesH CellTree.locateFacesH
    rw [rd_of_some hH, ok_bind, hcast, ok_bind]
    simp only
    rw [rd_snoc, ok_bind]
    constructor
    · rintro ⟨a, ha⟩
      obtain ⟨y, h1, h2⟩ := bind_eq_ok.1 ha
      obtain ⟨z, h3, h4⟩ := bind_eq_ok.1 h1
      obtain ⟨parts1, h5, rfl⟩ := (hloc z).1 h3
      simp only at h4
      rw [hw, ok_bind] at h4
      cases h4
      simp only at h2
      rw [rd_snoc, ok_bind] at h2
      obtain ⟨area, h6, h7⟩ := bind_eq_ok.1 h2
      refine ⟨parts1, h5, area, h6, ?_⟩
      have := Except.ok.inj h7
      rw [← (Prod.mk.inj this).2]
    · rintro ⟨parts1, h5, area, h6, rfl⟩
      rw [(hloc _).2 ⟨parts1, h5, rfl⟩]
      simp only [ok_bind]
      rw [hw]
      simp only [ok_bind]
      rw [rd_snoc, ok_bind]
      simp only
      rw [h6]
      exact ⟨_, rfl⟩
  rw [hmap, hbody]
  have hOne : ∀ parts, Forall₂ (OneArea env t bt vs) rows parts ↔ ∃ parts1, Forall₂ (OneLoc env t bt vs) rows parts1 ∧
      Forall₂ (fun (b : List Int × List Nat) part => ∃ cs, Forall₂ (fun j c => faceArea t vs b.1 j = .ok c) b.2 cs ∧
        part = (b.2.zip cs).filter fun x => decide (x.2 > 0)) (rows.zip parts1) parts := fun parts =>
    forall₂_zip_exists (A := OneLoc env t bt vs) (B := fun (b : List Int × List Nat) part => ∃ cs,
      Forall₂ (fun j c => faceArea t vs b.1 j = .ok c) b.2 cs ∧ part = (b.2.zip cs).filter fun x => decide (x.2 > 0))
  simp only [hOne]
  have hstep : ∀ parts1, Forall₂ (OneLoc env t bt vs) rows parts1 →
      ((∃ area, areaOfIntersection vs t.data.vertices (rows.map f) t.data.elements (joinIdx parts1) parts1.flatten
          (sched3 (joinIdx parts1).length) = .ok area ∧
        x = (applyMask (area.map fun a => decide (a > 0)) (joinIdx parts1),
          applyMask (area.map fun a => decide (a > 0)) parts1.flatten, applyMask (area.map fun a => decide (a > 0)) area)) ↔
      ∃ parts, Forall₂ (fun (b : List Int × List Nat) part => ∃ cs, Forall₂ (fun j c => faceArea t vs b.1 j = .ok c) b.2 cs ∧
        part = (b.2.zip cs).filter fun x => decide (x.2 > 0)) (rows.zip parts1) parts ∧
        x = (joinIdx parts, parts.flatten.map Prod.fst, parts.flatten.map Prod.snd)) := by
    intro parts1 h1
    have hl := h1.length_eq
    have hzip : (rows.zip parts1).map Prod.snd = parts1 := map_snd_zip (by omega)
    have key := batch_pairs (keep := fun a : F => decide (a > 0))
      (T := fun x c => (rd rows x.1 >>= fun r => faceArea t vs r x.2) = .ok c)
      (T' := fun (b : List Int × List Nat) j c => faceArea t vs b.1 j = .ok c) (h := Prod.snd) (rows.zip parts1) 0 (by
        intro i b hb j c
        simp only [Nat.add_zero]
        have : rows[i]? = some b.1 := by
          rw [List.getElem?_zip_eq_some] at hb
          exact hb.1
        rw [rd_of_some this, ok_bind])
    rw [hzip] at key
    have hI : joinIdx parts1 = (tagged 0 parts1).map Prod.fst := rfl
    have hJ := (tagged_snd 0 parts1).symm
    rw [hI, hJ]
    generalize tagged 0 parts1 = P at key
    have harea : ∀ cs, areaOfIntersection vs t.data.vertices (rows.map f) t.data.elements (P.map Prod.fst) (P.map Prod.snd)
        (sched3 (P.map Prod.fst).length) = .ok cs ↔
        Forall₂ (fun x c => (rd rows x.1 >>= fun r => faceArea t vs r x.2) = .ok c) P cs := by
      intro cs
      unfold areaOfIntersection
      rw [length_map]
      apply prange_forall₂ (hs3 _)
      intro i x hx
      rw [rd_of_some (by rw [getElem?_map, hx]; rfl), rd_of_some (by rw [getElem?_map, hx]; rfl)]
      simp only [ok_bind]
      cases hx1 : rows[x.1]? with
      | none =>
        have e1 : rd (rows.map f) x.1 = .error .oob := by unfold rd; rw [getElem?_map, hx1]; rfl
        have e2 : rd rows x.1 = .error .oob := by unfold rd; rw [hx1]
        rw [e1, e2]
        rfl
      | some r =>
        rw [rd_of_some (by rw [getElem?_map, hx1]; rfl), rd_of_some hx1]
        simp only [ok_bind]
        unfold faceArea
        rw [hf r (mem_of_getElem? hx1), ok_bind]
    simp only [harea]
    constructor
    · rintro ⟨cs, h1, rfl⟩
      obtain ⟨parts, h3, h4⟩ := (key _).1 ⟨cs, h1, rfl⟩
      refine ⟨parts, h3, ?_⟩
      rw [applyMask_left _ _ h1.length_eq.symm, applyMask_left _ _ h1.length_eq.symm,
        applyMask_right P _ h1.length_eq.symm, joinIdx, ← tagged_snd 0, ← h4]
      simp [Function.comp_def]
    · rintro ⟨parts, h3, rfl⟩
      obtain ⟨cs, h1, h4⟩ := (key _).2 ⟨parts, h3, rfl⟩
      refine ⟨cs, h1, ?_⟩
      rw [applyMask_left _ _ h1.length_eq.symm, applyMask_left _ _ h1.length_eq.symm,
        applyMask_right P _ h1.length_eq.symm, joinIdx, ← tagged_snd 0, h4]
      simp [Function.comp_def]
  constructor
  · rintro ⟨parts1, h1, h2⟩
    obtain ⟨parts, h3, h4⟩ := (hstep parts1 h1).1 h2
    exact ⟨parts, ⟨parts1, h1, h3⟩, h4⟩
  · rintro ⟨parts, ⟨parts1, h1, h3⟩, h4⟩
    exact ⟨parts1, h1, (hstep parts1 h1).2 ⟨parts, h3, h4⟩⟩

end

/-! ## Edges -/

/-- Positive and negative numbers are not equal to zero. -/
def ZeroTest (F : Type) [Zero F] [LT F] [BEq F] : Prop := ∀ x : F, 0 < x ∨ x < 0 → (x == 0) = false

theorem edgeSides_ok (hz : ZeroTest F) (nd : Node F) (a b V : Pt F) : ∃ s, edgeSides nd a b V = .ok s := by
  unfold edgeSides
  simp only
  split
  · rename_i h
    have := hz _ (Or.inl h)
    unfold fdiv
    simp only [this, Bool.false_eq_true, if_false, ok_bind]
    split <;> split <;> exact ⟨_, rfl⟩
  · split
    · rename_i h
      have := hz _ (Or.inr h)
      unfold fdiv
      simp only [this, Bool.false_eq_true, if_false, ok_bind]
      split <;> split <;> exact ⟨_, rfl⟩
    · exact ⟨_, rfl⟩

section
variable {tree : Tree F} {t : BT} {isect : Pt F → Pt F → Nat → M (Isect F)}

theorem run_edgeStep_inr {isect : Nat → M (Isect F)} {index : Nat} {cells : List Nat} {st st' : EdgeSt F}
    (h : runCells (edgeStep isect index) cells st = .ok (.inr st')) : ∀ j ∈ cells, ∃ r, isect j = .ok r := by
  induction cells generalizing st with
  | nil => simp
  | cons j cells ih =>
    unfold runCells at h
    obtain ⟨x, h1, h2⟩ := bind_eq_ok.1 h
    unfold edgeStep at h1
    obtain ⟨r, h3, h4⟩ := bind_eq_ok.1 h1
    intro i hi
    rcases mem_cons.1 hi with rfl | hi
    · exact ⟨r, h3⟩
    · cases x with
      | inl s => cases h2
      | inr s => exact ih h2 i hi

theorem locateEdge_runs (h : TreeOk tree t) (hz : ZeroTest F) {a b : Pt F} {indices : List (Nat × Nat)}
    {xy : List (Option (Pt F) × Option (Pt F))} {size index : Nat} {arr axy c s}
    (hr : locateEdge a b tree isect indices xy size index = .ok (arr, axy, some c, s)) : EdgeRuns tree t isect a b := by
  have hsides : ∀ nd ∈ tree.nodes, nd.child ≠ -1 → ∃ s, edgeSides nd a b (toVector a b) = .ok s :=
    fun nd _ _ => edgeSides_ok hz nd a b _
  unfold locateEdge at hr
  obtain ⟨r, h1, h2⟩ := bind_eq_ok.1 hr
  refine ⟨⟨r, h1⟩, hsides, ?_⟩
  intro r' hr'
  rw [h1] at hr'
  cases hr'
  simp only at h2
  obtain ⟨s, e1, e2, e3⟩ := Stk.single_spec (0 : Int)
  rw [e1, ok_bind] at h2
  have hw := whileStack_order (edgeVisit_visits tree (isect a b) a b index hsides) (edgeSel_nodup a b) h.ok h.root
    h.lo h.hi' e2 e3 ⟨indices, xy, size, 0⟩
  simp only [Tree.fuel] at h2
  rw [hw] at h2
  obtain ⟨y, h3, h4⟩ := bind_eq_ok.1 h2
  cases y with
  | inl st => cases h4
  | inr st => exact run_edgeStep_inr h3

theorem edgeRetry_runs (h : TreeOk tree t) (hz : ZeroTest F) {a b : Pt F} {index total fuel : Nat} {indices : List (Nat × Nat)}
    {xy : List (Option (Pt F) × Option (Pt F))} {size : Nat} {x}
    (hr : edgeRetry a b tree isect index total fuel indices xy size = .ok x) : EdgeRuns tree t isect a b := by
  induction fuel generalizing indices xy size with
  | zero => cases hr
  | succ fuel ih =>
    unfold edgeRetry at hr
    obtain ⟨⟨arr, axy, c, s⟩, h1, h2⟩ := bind_eq_ok.1 hr
    cases c with
    | some c => exact locateEdge_runs h hz h1
    | none => exact ih h2

theorem edgeHelperLoop_runs (h : TreeOk tree t) (hz : ZeroTest F) {offset : Nat} {edges : List (Pt F × Pt F)} {k : Nat}
    {indices : List (Nat × Nat)} {xy : List (Option (Pt F) × Option (Pt F))} {total size : Nat} {x}
    (hr : edgeHelperLoop tree isect offset edges k indices xy total size = .ok x) :
    ∀ q ∈ edges, EdgeRuns tree t isect q.1 q.2 := by
  induction edges generalizing k indices xy total size with
  | nil => simp
  | cons q edges ih =>
    obtain ⟨a, b⟩ := q
    unfold edgeHelperLoop at hr
    obtain ⟨⟨arr, axy, c, s⟩, h1, h2⟩ := bind_eq_ok.1 hr
    intro q hq
    rcases mem_cons.1 hq with rfl | hq
    · exact edgeRetry_runs h hz h1
    · exact ih h2 q hq

theorem locateEdges_runs (h : TreeOk tree t) (hz : ZeroTest F) {edges : List (Pt F × Pt F)} {n : Nat} (hn : 0 < n)
    {sched : List Nat} (hs : sched.Perm (List.range n)) {x} (hr : locateEdges edges tree isect n sched = .ok x) :
    ∀ q ∈ edges, EdgeRuns tree t isect q.1 q.2 := by
  unfold locateEdges at hr
  obtain ⟨cs, h1, h2, h3, _⟩ := arraySplit_spec edges hn
  obtain ⟨o, h4, h5, h6⟩ := chunkOffsets_spec cs h2 hn
  rw [h1, ok_bind, h4, ok_bind] at hr
  obtain ⟨res, h7, _⟩ := bind_eq_ok.1 hr
  obtain ⟨h8, h9⟩ := (prange_eq_ok hs _).1 h7
  intro q hq
  rw [← h3] at hq
  obtain ⟨c, hc, hq⟩ := mem_flatten.1 hq
  obtain ⟨i, hi⟩ := getElem?_of_mem hc
  have hi' : i < cs.length := (List.getElem?_eq_some_iff.1 hi).1
  have := h9 i (by omega)
  rw [rd_of_some hi, ok_bind, rd_of_some (h6 i (by omega)), ok_bind] at this
  exact edgeHelperLoop_runs h hz this q hq

def OneEdge (tree : Tree F) (t : BT) (isect : Pt F → Pt F → Nat → M (Isect F)) (q : Pt F × Pt F) (part : List (EHit F)) : Prop :=
  EdgeRuns tree t isect q.1 q.2 ∧ part = edgeHits tree t isect q

theorem locateEdges_iff (h : TreeOk tree t) (hz : ZeroTest F) (edges : List (Pt F × Pt F)) {n : Nat} (hn : 0 < n)
    {sched : List Nat} (hs : sched.Perm (List.range n)) (x) :
    locateEdges edges tree isect n sched = .ok x ↔ ∃ parts, Forall₂ (OneEdge tree t isect) edges parts ∧
      x = (joinIdx parts, parts.flatten.map Prod.fst, parts.flatten.map Prod.snd) := by
  have hall : edgeAll tree t isect edges = tagged 0 (edges.map (edgeHits tree t isect)) := (tagged_map 0 edges _).symm
  have hparts : ∀ parts, Forall₂ (OneEdge tree t isect) edges parts ↔
      (∀ q ∈ edges, EdgeRuns tree t isect q.1 q.2) ∧ parts = edges.map (edgeHits tree t isect) := by
    intro parts
    clear hall
    induction edges generalizing parts with
    | nil => rw [forall₂_nil_left_iff]; simp
    | cons b edges ih =>
      rw [forall₂_cons_left_iff]
      simp only [ih]
      constructor
      · rintro ⟨_, _, ⟨h1, rfl⟩, ⟨h2, rfl⟩, rfl⟩
        refine ⟨?_, rfl⟩
        intro q hq
        rcases mem_cons.1 hq with rfl | hq
        · exact h1
        · exact h2 q hq
      · rintro ⟨h1, rfl⟩
        exact ⟨_, _, ⟨h1 b (by simp), rfl⟩, ⟨fun q hq => h1 q (by simp [hq]), rfl⟩, rfl⟩
  simp only [hparts]
  constructor
  · intro hr
    have hruns := locateEdges_runs h hz hn hs hr
    refine ⟨_, ⟨hruns, rfl⟩, ?_⟩
    rw [locateEdges_spec h edges hruns hn hs] at hr
    rw [← Except.ok.inj hr, joinIdx, ← tagged_snd 0, hall]
    simp [Function.comp_def]
  · rintro ⟨_, ⟨hruns, rfl⟩, rfl⟩
    rw [locateEdges_spec h edges hruns hn hs, joinIdx, ← tagged_snd 0, hall]
    simp [Function.comp_def]

end
end Celltree
