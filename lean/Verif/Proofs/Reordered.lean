import Verif.Spec.Reordered
import Verif.Props.Wachspress

/-!
# Faces in another order, from another corner, or in the other direction
-/

set_option linter.unusedSectionVars false

namespace Celltree

section
variable {α β : Type}

theorem SameCorners.map (f : α → β) {l' l : List α} (h : SameCorners l' l) : SameCorners (l'.map f) (l.map f) := by
  unfold SameCorners at h ⊢
  rw [← List.map_reverse]
  exact h.imp (fun h => h.map f) fun h => h.map f

theorem SameCorners.mem {l' l : List α} (h : SameCorners l' l) (x : α) : x ∈ l' ↔ x ∈ l := by
  rcases h with h | h
  · exact h.perm.mem_iff
  · rw [h.perm.mem_iff, List.mem_reverse]

theorem filterMap_rotated (f : α → Option β) {l' l : List α} (h : l' ~r l) : l'.filterMap f ~r l.filterMap f := by
  obtain ⟨n, rfl⟩ := h
  have := List.rotate_eq_drop_append_take_mod (l := l') (n := n)
  rw [this, List.filterMap_append]
  conv_lhs => rw [← List.take_append_drop (n % l'.length) l', List.filterMap_append]
  exact List.isRotated_append

theorem SameCorners.filterMap (f : α → Option β) {l' l : List α} (h : SameCorners l' l) :
    SameCorners (l'.filterMap f) (l.filterMap f) := by
  unfold SameCorners at h ⊢
  rw [← List.filterMap_reverse]
  exact h.imp (filterMap_rotated f) (filterMap_rotated f)

theorem cornersOf_rotate (l : List α) (n : Nat) : cornersOf (l.rotate n) = (cornersOf l).rotate n := by
  unfold cornersOf
  rw [List.length_rotate, List.rotate_rotate, List.rotate_rotate, Nat.add_comm n (l.length - 1), Nat.add_comm n 1,
    ← List.rotate_rotate, ← List.rotate_rotate]
  unfold List.zip
  rw [List.zipWith_rotate_distrib, List.zipWith_rotate_distrib]
  · simp
  · simp

end

theorem Reordered.row {σ : List Nat} {fill fill' : Int} {faces faces' : IntArr} (h : Reordered σ fill faces fill' faces') {k : Nat}
    {r' : List Int} (hk : faces'.rows[k]? = some r') : ∃ r, σ[k]? = some (origin σ k) ∧ faces.rows[origin σ k]? = some r ∧
      SameCorners (rowIndices fill' r') (rowIndices fill r) := by
  have h1 : k < σ.length := h.length ▸ (List.getElem?_eq_some_iff.1 hk).1
  have e : σ[k]? = some (origin σ k) := by
    unfold origin
    rw [List.getD_eq_getElem?_getD, List.getElem?_eq_getElem h1]; rfl
  have h2 : origin σ k < faces.rows.length := List.mem_range.1 (h.perm.mem_iff.1 (List.mem_of_getElem? e))
  exact ⟨_, e, List.getElem?_eq_getElem h2, h.corners k _ r' _ e hk (List.getElem?_eq_getElem h2)⟩

theorem Reordered.row' {σ : List Nat} {fill fill' : Int} {faces faces' : IntArr} (h : Reordered σ fill faces fill' faces') {j : Nat}
    {r : List Int} (hj : faces.rows[j]? = some r) : ∃ (k : Nat) (r' : List Int), origin σ k = j ∧ faces'.rows[k]? = some r' ∧
      SameCorners (rowIndices fill' r') (rowIndices fill r) := by
  have h1 : j ∈ σ := h.perm.mem_iff.2 (List.mem_range.2 (List.getElem?_eq_some_iff.1 hj).1)
  obtain ⟨k, hk, e⟩ := List.mem_iff_getElem.1 h1
  have e' : σ[k]? = some j := by rw [List.getElem?_eq_getElem hk, e]
  have h2 : k < faces'.rows.length := h.length ▸ hk
  exact ⟨k, _, by unfold origin; rw [List.getD_eq_getElem?_getD, e']; rfl, List.getElem?_eq_getElem h2,
    h.corners k j _ r e' (List.getElem?_eq_getElem h2) hj⟩

theorem Reordered.inj {σ : List Nat} {fill fill' : Int} {faces faces' : IntArr} (h : Reordered σ fill faces fill' faces') {k m : Nat}
    (hk : k < faces'.rows.length) (hm : m < faces'.rows.length) (e : origin σ k = origin σ m) : k = m := by
  have nd : σ.Nodup := h.perm.nodup_iff.2 List.nodup_range
  rw [h.length] at hk hm
  unfold origin at e
  rw [List.getD_eq_getElem?_getD, List.getD_eq_getElem?_getD, List.getElem?_eq_getElem hk, List.getElem?_eq_getElem hm] at e
  exact (List.Nodup.getElem_inj_iff nd).1 e

theorem Reordered.pts {F : Type} {fill fill' : Int} (vertices : List (Pt F))
    {r r' : List Int} (h : SameCorners (rowIndices fill' r') (rowIndices fill r)) :
    SameCorners (facePts vertices fill' r') (facePts vertices fill r) := h.filterMap _

/-- Two tables with the same content, if the rows and columns have other numbers. -/
theorem table_perm {α : Type} {T T' : List (Nat × Nat × α)} {P P' : Nat → Nat → α → Prop} {f g : Nat → Nat}
    (hT : ∀ i j a, (i, j, a) ∈ T ↔ P i j a) (hT' : ∀ i j a, (i, j, a) ∈ T' ↔ P' i j a) (nd : T.Nodup) (nd' : T'.Nodup)
    (hP : ∀ i j a, P' i j a → P (f i) (g j) a) (hP' : ∀ i j a, P i j a → ∃ i' j', f i' = i ∧ g j' = j ∧ P' i' j' a)
    (inj : ∀ i j a i' j', P' i j a → P' i' j' a → f i = f i' → g j = g j' → i = i' ∧ j = j') :
    (T'.map fun x => (f x.1, g x.2.1, x.2.2)).Perm T := by
  have nd'' : (T'.map fun x => (f x.1, g x.2.1, x.2.2)).Nodup := by
    refine List.Nodup.map_on ?_ nd'
    rintro ⟨i, j, a⟩ h1 ⟨i', j', a'⟩ h2 e
    simp only [Prod.mk.injEq] at e
    obtain ⟨e1, e2, rfl⟩ := e
    obtain ⟨rfl, rfl⟩ := inj i j a i' j' ((hT' _ _ _).1 h1) ((hT' _ _ _).1 h2) e1 e2
    rfl
  rw [List.perm_ext_iff_of_nodup nd'' nd]
  rintro ⟨i, j, a⟩
  rw [hT, List.mem_map]
  constructor
  · rintro ⟨⟨i', j', a'⟩, h1, e⟩
    simp only [Prod.mk.injEq] at e
    obtain ⟨rfl, rfl, rfl⟩ := e
    exact hP _ _ _ ((hT' _ _ _).1 h1)
  · intro h
    obtain ⟨i', j', rfl, rfl, h'⟩ := hP' i j a h
    exact ⟨(i', j', a), (hT' _ _ _).2 h', rfl⟩

theorem table_perm₂ {T T' : List (Nat × Nat)} {P P' : Nat → Nat → Prop} {f g : Nat → Nat}
    (hT : ∀ i j, (i, j) ∈ T ↔ P i j) (hT' : ∀ i j, (i, j) ∈ T' ↔ P' i j) (nd : T.Nodup) (nd' : T'.Nodup)
    (hP : ∀ i j, P' i j → P (f i) (g j)) (hP' : ∀ i j, P i j → ∃ i' j', f i' = i ∧ g j' = j ∧ P' i' j')
    (inj : ∀ i j i' j', P' i j → P' i' j' → f i = f i' → g j = g j' → i = i' ∧ j = j') :
    (T'.map fun x => (f x.1, g x.2)).Perm T := by
  have nd'' : (T'.map fun x => (f x.1, g x.2)).Nodup := by
    refine List.Nodup.map_on ?_ nd'
    rintro ⟨i, j⟩ h1 ⟨i', j'⟩ h2 e
    simp only [Prod.mk.injEq] at e
    obtain ⟨e1, e2⟩ := e
    obtain ⟨rfl, rfl⟩ := inj i j i' j' ((hT' _ _).1 h1) ((hT' _ _).1 h2) e1 e2
    rfl
  rw [List.perm_ext_iff_of_nodup nd'' nd]
  rintro ⟨i, j⟩
  rw [hT, List.mem_map]
  constructor
  · rintro ⟨⟨i', j'⟩, h1, e⟩
    simp only [Prod.mk.injEq] at e
    obtain ⟨rfl, rfl⟩ := e
    exact hP _ _ ((hT' _ _).1 h1)
  · intro h
    obtain ⟨i', j', rfl, rfl, h'⟩ := hP' i j h
    exact ⟨(i', j'), (hT' _ _).2 h', rfl⟩

theorem zip3_nodup {α : Type} {ii jj : List Nat} {areas : List α} (e1 : ii.length = jj.length) (e2 : jj.length = areas.length)
    (hnd : (ii.zip jj).Nodup) : (ii.zip (jj.zip areas)).Nodup := by
  apply List.Nodup.of_map (fun x : Nat × Nat × α => (x.1, x.2.1))
  have : (ii.zip (jj.zip areas)).map (fun x : Nat × Nat × α => (x.1, x.2.1)) = ii.zip jj := by
    apply List.ext_getElem
    · simp; omega
    · intro k k1 k2; simp
  rw [this]; exact hnd

variable {K : Type} [Field K] [LinearOrder K] [IsStrictOrderedRing K]

theorem SameCorners.sides {α : Type} {l' l : List α} (h : SameCorners l' l) :
    (Celltree.sides l').Perm (Celltree.sides l) ∨ (Celltree.sides l').Perm ((Celltree.sides l).map Prod.swap) :=
  h.imp sides_isRotated fun h => (sides_isRotated h).trans (sides_reverse l)

theorem inPoly_rotated {l l' : List (Pt K)} (h : l' ~r l) (p : Pt K) : InPoly l' p ↔ InPoly l p :=
  ⟨fun g => g.rotated h, fun g => g.rotated h.symm⟩

theorem inInterior_rotated {l l' : List (Pt K)} (h : l' ~r l) (p : Pt K) : InInterior l' p ↔ InInterior l p :=
  ⟨fun g => g.rotated h, fun g => g.rotated h.symm⟩

theorem convexPoly_rotated {l l' : List (Pt K)} (h : l' ~r l) : ConvexPoly l' ↔ ConvexPoly l :=
  ⟨fun g => g.rotated h, fun g => g.rotated h.symm⟩

theorem SameCorners.inFace {l' l : List (Pt K)} (h : SameCorners l' l) (p : Pt K) : InFace l' p ↔ InFace l p := by
  have key : ∀ {l' l : List (Pt K)}, l' ~r l → (InFace l' p ↔ InFace l p) := fun h => by
    unfold InFace
    rw [inPoly_rotated h, inPoly_rotated h.reverse]
  rcases h with h | h
  · exact key h
  · rw [key h, inFace_reverse]

theorem SameCorners.inFaceInterior {l' l : List (Pt K)} (h : SameCorners l' l) (p : Pt K) :
    InFaceInterior l' p ↔ InFaceInterior l p := by
  have key : ∀ {l' l : List (Pt K)}, l' ~r l → (InFaceInterior l' p ↔ InFaceInterior l p) := fun h => by
    unfold InFaceInterior
    rw [inInterior_rotated h, inInterior_rotated h.reverse, convexPoly_rotated h, convexPoly_rotated h.reverse]
  rcases h with h | h
  · exact key h
  · rw [key h, inFaceInterior_reverse]

theorem SameCorners.faceRegion {l' l : List (Pt ℝ)} (h : SameCorners l' l) : Celltree.faceRegion l' = Celltree.faceRegion l :=
  Set.ext fun _ => h.inFace _

theorem SameCorners.accepts {l' l : List (Pt K)} (h : SameCorners l' l) (tol : K) (p : Pt K) :
    Accepts tol l' p ↔ Accepts tol l p := by
  have key : ∀ {l' l : List (Pt K)}, l' ~r l → (Accepts tol l' p ↔ Accepts tol l p) := fun h => by
    unfold Accepts
    rw [(sides_isRotated h).countP_eq]
    simp only [(sides_isRotated h).mem_iff]
  rcases h with h | h
  · exact key h
  · rw [key h, accepts_reverse]

theorem SameCorners.inBoxOf {F : Type} [LE F] {l' l : List (Pt F)} (h : SameCorners l' l) (p : Pt F) : InBoxOf l' p ↔ InBoxOf l p := by
  unfold InBoxOf
  simp only [h.mem]

theorem SameCorners.overlaps {F : Type} [LT F] {l' l : List (Pt F)} (h : SameCorners l' l) (q : Box F) :
    BoxOverlapsPts q l' ↔ BoxOverlapsPts q l := by
  unfold BoxOverlapsPts
  simp only [h.mem]

theorem SameCorners.strict {l' l : List (Pt K)} (h : SameCorners l' l) (hl : StrictlyConvex l ∨ StrictlyConvex l.reverse) :
    StrictlyConvex l' ∨ StrictlyConvex l'.reverse := by
  rcases h with h | h
  · exact hl.imp (fun g => g.rotated h.symm) fun g => g.rotated h.reverse.symm
  · refine hl.symm.imp (fun g => g.rotated h.symm) fun g => g.rotated ?_
    have := h.reverse.symm
    rwa [List.reverse_reverse] at this

theorem SameCorners.wachspress {l' l : List Int} (h : SameCorners l' l) (h2 : 2 ≤ l.length) (P : Int → Pt K) (f : Int → K) (p : Pt K) :
    wachspressValue P f l' p = wachspressValue P f l p := by
  have key : ∀ {l' l : List Int}, l' ~r l → wachspressValue P f l' p = wachspressValue P f l p := fun {l' l} h => by
    obtain ⟨n, rfl⟩ := h
    unfold wachspressValue
    rw [cornersOf_rotate]
    have hp : ((cornersOf l').rotate n).Perm (cornersOf l') := List.rotate_perm _ _
    rw [(hp.map _).sum_eq, (hp.map _).sum_eq]
  rcases h with h | h
  · exact key h
  · rw [key h, wachspressValue_reverse P f h2]

theorem SameCorners.sides_mem {α : Type} {l' l : List α} (h : SameCorners l' l) (v w : α) :
    ((v, w) ∈ Celltree.sides l' ∨ (w, v) ∈ Celltree.sides l') ↔ ((v, w) ∈ Celltree.sides l ∨ (w, v) ∈ Celltree.sides l) := by
  rcases h.sides with h | h
  · rw [h.mem_iff, h.mem_iff]
  · have : ∀ a b : α, (a, b) ∈ (Celltree.sides l).map Prod.swap ↔ (b, a) ∈ Celltree.sides l := by
      intro a b
      rw [List.mem_map]
      constructor
      · rintro ⟨⟨x, y⟩, h1, h2⟩
        simp only [Prod.swap, Prod.mk.injEq] at h2
        obtain ⟨rfl, rfl⟩ := h2
        exact h1
      · exact fun h => ⟨_, h, rfl⟩
    rw [h.mem_iff, h.mem_iff, this, this, or_comm]

end Celltree
