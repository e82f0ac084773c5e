import Verif.Model.Demo
import Verif.Spec.Mesh
import Verif.Proofs.Init
import Mathlib.Data.List.TakeWhile

/-!
# Unique edges of a mesh: C52
-/

set_option linter.unusedSectionVars false

namespace Celltree

/-- `(a, b)` is a side of the polygon with the vertices `vs`: `b` follows `a`, or `b` is the first and `a` the last
vertex. -/
def IsSideOf (vs : List Int) (a b : Int) : Prop :=
  (∃ i, vs[i]? = some a ∧ vs[i + 1]? = some b) ∨ (vs.getLast? = some a ∧ vs.head? = some b)

/-- A padded row: at least one vertex, followed by fill values only. -/
structure PaddedRow (fill : Int) (row : List Int) : Prop where
  one : rowIndices fill row ≠ []
  pad : ∀ v ∈ row.drop (rowIndices fill row).length, v = fill

theorem lexLt_iff {a b : Int × Int} : lexLt a b = true ↔ a.1 < b.1 ∨ (a.1 = b.1 ∧ a.2 < b.2) := by
  simp [lexLt]

theorem mem_insertUnique {e x : Int × Int} {l : List (Int × Int)} : x ∈ insertUnique e l ↔ x = e ∨ x ∈ l := by
  induction l with
  | nil => simp [insertUnique]
  | cons y l ih =>
    unfold insertUnique
    split
    · simp
    · split
      · rename_i h; subst h; simp
      · simp only [List.mem_cons, ih]; tauto

theorem insertUnique_sorted {e : Int × Int} {l : List (Int × Int)} (h : l.Pairwise fun a b => lexLt a b = true) :
    (insertUnique e l).Pairwise fun a b => lexLt a b = true := by
  induction l with
  | nil => simp [insertUnique]
  | cons y l ih =>
    obtain ⟨h1, h2⟩ := List.pairwise_cons.1 h
    unfold insertUnique
    split
    · rename_i hlt
      refine List.pairwise_cons.2 ⟨?_, h⟩
      intro z hz
      rcases List.mem_cons.1 hz with rfl | hz
      · exact hlt
      · have := h1 z hz
        rw [lexLt_iff] at *
        omega
    · split
      · exact h
      · rename_i hn hne
        refine List.pairwise_cons.2 ⟨?_, ih h2⟩
        intro z hz
        rcases mem_insertUnique.1 hz with rfl | hz
        · rw [lexLt_iff] at *
          have : ¬ (z.1 = y.1 ∧ z.2 = y.2) := fun hh => hne (Prod.ext hh.1 hh.2)
          omega
        · exact h1 z hz

theorem mem_uniqueRows {x : Int × Int} {l : List (Int × Int)} : x ∈ uniqueRows l ↔ x ∈ l := by
  induction l with
  | nil => simp [uniqueRows]
  | cons y l ih =>
    have : uniqueRows (y :: l) = insertUnique y (uniqueRows l) := rfl
    rw [this, mem_insertUnique, ih, List.mem_cons]

theorem uniqueRows_sorted (l : List (Int × Int)) : (uniqueRows l).Pairwise fun a b => lexLt a b = true := by
  induction l with
  | nil => simp [uniqueRows]
  | cons y l ih => exact insertUnique_sorted ih

/-- The row after closing: the vertices, followed by copies of the first vertex. -/
theorem closePolygon_spec {fill : Int} {row : List Int} (h : PaddedRow fill row) :
    ∃ v vs m, rowIndices fill row = v :: vs ∧ closePolygon fill row = .ok (v :: vs ++ List.replicate (m + 1) v) := by
  cases row with
  | nil => exact (h.one rfl).elim
  | cons v rest =>
    obtain ⟨w, ws, hw⟩ := List.exists_cons_of_ne_nil h.one
    have htw : rowIndices fill (v :: rest) ++ (v :: rest).drop (rowIndices fill (v :: rest)).length = v :: rest := by
      unfold rowIndices
      conv => rhs; rw [← List.takeWhile_append_dropWhile (p := fun v => decide (v ≠ fill)) (l := v :: rest)]
      congr 1
      conv => lhs; rw [← List.takeWhile_append_dropWhile (p := fun v => decide (v ≠ fill)) (l := v :: rest)]
      rw [List.drop_left' (by simp [List.takeWhile_append_dropWhile])]
    have hpad : (v :: rest).drop (rowIndices fill (v :: rest)).length =
        List.replicate ((v :: rest).drop (rowIndices fill (v :: rest)).length).length fill :=
      List.eq_replicate_iff.2 ⟨rfl, h.pad⟩
    obtain ⟨m, hm⟩ : ∃ m, m = ((v :: rest).drop (rowIndices fill (v :: rest)).length).length := ⟨_, rfl⟩
    rw [hpad, ← hm, hw] at htw
    have hv : w = v := by
      have := congrArg List.head? htw
      simpa using this
    subst hv
    refine ⟨w, ws, m, hw, ?_⟩
    show (Except.ok _ : M (List Int)) = _
    congr 1
    rw [← htw, List.append_assoc, ← List.replicate_succ', List.map_append, List.map_replicate, if_pos rfl]
    congr 1
    have hne : ∀ x ∈ w :: ws, x ≠ fill := by
      intro x hx
      rw [← hw] at hx
      have := List.mem_takeWhile_imp hx
      simpa using this
    conv => rhs; rw [← List.map_id (w :: ws)]
    apply List.map_congr_left
    intro x hx
    rw [if_neg (hne x hx)]; rfl

/-- The sides of a closed row. -/
theorem mem_rowSides (v : Int) (vs : List Int) (m : Nat) (a b : Int) :
    ((a, b) ∈ rowSides (v :: vs ++ List.replicate (m + 1) v) ∧ a ≠ b) ↔ IsSideOf (v :: vs) a b ∧ a ≠ b := by
  have hsides : rowSides (v :: vs ++ List.replicate (m + 1) v) =
      (v :: vs).zip (vs ++ [v]) ++ List.replicate m (v, v) := by
    unfold rowSides
    have h1 : (v :: vs ++ List.replicate (m + 1) v).dropLast = v :: vs ++ List.replicate m v := by
      rw [List.replicate_succ', ← List.append_assoc, List.dropLast_concat]
    have h2 : (v :: vs ++ List.replicate (m + 1) v).tail = (vs ++ [v]) ++ List.replicate m v := by
      rw [List.replicate_succ]; simp
    rw [h1, h2, List.zip_append (by simp)]
    congr 1
    simp
  rw [hsides]
  have hz : (a, b) ∈ (v :: vs).zip (vs ++ [v]) ↔ IsSideOf (v :: vs) a b := by
    rw [List.mem_iff_getElem?]
    unfold IsSideOf
    constructor
    · rintro ⟨i, hi⟩
      rw [List.getElem?_zip_eq_some] at hi
      obtain ⟨h1, h2⟩ := hi
      by_cases hlt : i < vs.length
      · rw [List.getElem?_append_left hlt] at h2
        exact Or.inl ⟨i, h1, by simpa using h2⟩
      · have : i = vs.length := by
          have := (List.getElem?_eq_some_iff.1 h1).1
          simp at this; omega
        subst this
        right
        rw [List.getLast?_eq_getElem?]
        simp at h1 h2 ⊢
        exact ⟨h1, h2⟩
    · rintro (⟨i, h1, h2⟩ | ⟨h1, h2⟩)
      · refine ⟨i, List.getElem?_zip_eq_some.2 ⟨h1, ?_⟩⟩
        have hlt : i < vs.length := by
          have := (List.getElem?_eq_some_iff.1 h2).1
          simp at this; omega
        rw [List.getElem?_append_left hlt]
        simpa using h2
      · refine ⟨vs.length, List.getElem?_zip_eq_some.2 ⟨?_, ?_⟩⟩
        · rw [List.getLast?_eq_getElem?] at h1
          simpa using h1
        · simpa using h2
  rw [List.mem_append, hz]
  constructor
  · rintro ⟨h | h, hne⟩
    · exact ⟨h, hne⟩
    · obtain ⟨_, h⟩ := List.mem_replicate.1 h
      cases h
      exact (hne rfl).elim
  · rintro ⟨h, hne⟩
    exact ⟨Or.inl h, hne⟩

/-- **C52**: `edges` returns exactly the sides of the faces that join different vertices, with the smaller vertex first,
in strictly increasing lexicographic order. -/
theorem C52_edges_exact (faces : List (List Int)) (fill : Int) (hf : ∀ r ∈ faces, PaddedRow fill r) :
    ∃ es, demoEdges faces fill = .ok es ∧
      (∀ a b, (a, b) ∈ es ↔ a < b ∧ ∃ r ∈ faces, IsSideOf (rowIndices fill r) a b ∨ IsSideOf (rowIndices fill r) b a) ∧
      es.Pairwise (fun e f => e.1 < f.1 ∨ (e.1 = f.1 ∧ e.2 < f.2)) := by
  have key : ∀ r ∈ faces, ∃ c, closePolygon fill r = .ok c ∧
      ∀ a b, ((a, b) ∈ rowSides c ∧ a ≠ b) ↔ IsSideOf (rowIndices fill r) a b ∧ a ≠ b := by
    intro r hr
    obtain ⟨v, vs, m, h1, h2⟩ := closePolygon_spec (hf r hr)
    refine ⟨_, h2, ?_⟩
    rw [h1]
    exact mem_rowSides v vs m
  obtain ⟨closed, h1, h2, h3⟩ := mapM_exists faces key
  refine ⟨_, by unfold demoEdges; rw [h1]; rfl, ?_, ?_⟩
  · intro a b
    rw [mem_uniqueRows, List.mem_map]
    have hsides : ∀ x y, ((x, y) ∈ (closed.flatMap rowSides).filter fun e => e.1 != e.2) ↔
        ∃ r ∈ faces, IsSideOf (rowIndices fill r) x y ∧ x ≠ y := by
      intro x y
      rw [List.mem_filter, List.mem_flatMap]
      constructor
      · rintro ⟨⟨c, hc, hxy⟩, hne⟩
        have hne : x ≠ y := by simpa using hne
        obtain ⟨i, r, hi, hi'⟩ := mem_of_getElem?_corr h2 hc
        obtain ⟨c', c1, _, c3⟩ := h3 i r hi
        rw [hi'] at c1
        cases c1
        exact ⟨r, List.mem_of_getElem? hi, (c3 x y).1 ⟨hxy, hne⟩⟩
      · rintro ⟨r, hr, hxy, hne⟩
        obtain ⟨i, hi⟩ := List.mem_iff_getElem?.1 hr
        obtain ⟨c, c1, _, c3⟩ := h3 i r hi
        exact ⟨⟨c, List.mem_of_getElem? c1, ((c3 x y).2 ⟨hxy, hne⟩).1⟩, by simpa using hne⟩
    constructor
    · rintro ⟨⟨x, y⟩, hxy, he⟩
      obtain ⟨r, hr, hs, hne⟩ := (hsides x y).1 hxy
      unfold sortPair at he
      simp only at he
      split at he
      · cases he
        exact ⟨by assumption, r, hr, Or.inr hs⟩
      · cases he
        exact ⟨by omega, r, hr, Or.inl hs⟩
    · rintro ⟨hlt, r, hr, hs | hs⟩
      · refine ⟨(a, b), (hsides a b).2 ⟨r, hr, hs, by omega⟩, ?_⟩
        unfold sortPair
        rw [if_neg (by simp only; omega)]
      · refine ⟨(b, a), (hsides b a).2 ⟨r, hr, hs, by omega⟩, ?_⟩
        unfold sortPair
        rw [if_pos (by simpa using hlt)]
  · exact (uniqueRows_sorted _).imp fun h => lexLt_iff.1 h

/-- **C52**: no edge is returned twice. -/
theorem C52_edges_once (faces : List (List Int)) (fill : Int) (hf : ∀ r ∈ faces, PaddedRow fill r) :
    ∃ es, demoEdges faces fill = .ok es ∧ es.Nodup := by
  obtain ⟨es, h1, _, h2⟩ := C52_edges_exact faces fill hf
  refine ⟨es, h1, h2.imp ?_⟩
  rintro e f h rfl
  omega

/-- **C52**: the amount of padding has no influence. -/
theorem C52_edges_padding (faces faces' : List (List Int)) (fill : Int) (hf : ∀ r ∈ faces, PaddedRow fill r)
    (hf' : ∀ r ∈ faces', PaddedRow fill r) (h : faces.map (rowIndices fill) = faces'.map (rowIndices fill)) :
    demoEdges faces fill = demoEdges faces' fill := by
  obtain ⟨es, h1, h2, h3⟩ := C52_edges_exact faces fill hf
  obtain ⟨es', h1', h2', h3'⟩ := C52_edges_exact faces' fill hf'
  rw [h1, h1']
  have hmem : ∀ x, x ∈ es ↔ x ∈ es' := by
    rintro ⟨a, b⟩
    rw [h2, h2']
    have : ∀ P : List Int → Prop, (∃ r ∈ faces, P (rowIndices fill r)) ↔ ∃ r ∈ faces', P (rowIndices fill r) := by
      intro P
      have e : ∀ fs : List (List Int), (∃ r ∈ fs, P (rowIndices fill r)) ↔ ∃ vs ∈ fs.map (rowIndices fill), P vs := by
        intro fs; simp
      rw [e, e, h]
    exact and_congr_right fun _ => this fun vs => IsSideOf vs a b ∨ IsSideOf vs b a
  congr 1
  have hasym : ∀ e f : Int × Int, (e.1 < f.1 ∨ (e.1 = f.1 ∧ e.2 < f.2)) → ¬ (f.1 < e.1 ∨ (f.1 = e.1 ∧ f.2 < e.2)) := by
    intro e f; omega
  have hn : es.Nodup := h3.imp fun {e f} h => by rintro rfl; omega
  have hn' : es'.Nodup := h3'.imp fun {e f} h => by rintro rfl; omega
  exact List.Perm.eq_of_pairwise (fun e f _ _ h1 h2 => (hasym e f h1 h2).elim) h3 h3'
    ((List.perm_ext_iff_of_nodup hn hn').2 hmem)

/-- The hypotheses can be met: a triangle and a quadrilateral. -/
example : (∀ r ∈ [[3, 1, 2, -1], [1, 2, 5, 4]], PaddedRow (-1) r) ∧
    demoEdges [[3, 1, 2, -1], [1, 2, 5, 4]] (-1) = .ok [(1, 2), (1, 3), (1, 4), (2, 3), (2, 5), (4, 5)] := by
  refine ⟨?_, by decide⟩
  intro r hr
  simp only [List.mem_cons, List.not_mem_nil, or_false] at hr
  rcases hr with rfl | rfl <;> exact ⟨by decide, by decide⟩

end Celltree
