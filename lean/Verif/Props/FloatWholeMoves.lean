import Verif.Props.FloatWholePieces
import Verif.Props.AffineEdges

/-!
# Edges at integer coordinates in binary64, in other coordinates and in parts: C130, C131
-/

set_option linter.unusedSectionVars false

namespace Celltree.Fl

variable {env : Env Fl} {vertices vertices' : List (Pt Fl)} {faces faces' : IntArr}
  {fill fill' nBuckets cellsPerLeaf nBuckets' cellsPerLeaf' : Int} {t t' : CellTree Fl}
  {cs cs' : List (List (Pt ℚ))} {m f : ℚ} {A : Affine ℚ}

/-- The edges are between points with integer coordinates. They are in compass directions, or they are not too long and do not touch a
corner of the bounding box of a face or of the mesh. -/
def ClearEdges (cs : List (List (Pt ℚ))) (edges : List (Pt ℚ × Pt ℚ)) : Prop :=
  ∀ e ∈ edges, Run e.1 e.2 ∧ (e.1 ≠ e.2 → Steps e.1 e.2) ∧ ∀ l, l = cs.flatten ∨ l ∈ cs → ∀ box, IsBBox l box → BoxClear box e.1 e.2

/-- The faces are at integer coordinates, strictly convex, and at most `2 ^ 12` wide and high. -/
structure WholeMesh (env : Env Fl) (vertices : List (Pt Fl)) (faces : IntArr) (fill : Int) (cs : List (List (Pt ℚ))) : Prop where
  good : GoodMesh env vertices faces fill
  faces : WholeFaces vertices fill faces cs
  small : ∀ c ∈ cs, ∀ v ∈ c, ∀ w ∈ c, |w.x - v.x| ≤ 2 ^ 12 ∧ |w.y - v.y| ≤ 2 ^ 12

/-- The points agree up to `1 / 2 ^ 26`. -/
def Close26 (p q : Pt ℚ) : Prop := |p.x - q.x| ≤ 1 / 2 ^ 26 ∧ |p.y - q.y| ≤ 1 / 2 ^ 26

/-- `e'` is the edge `e` in the new coordinates, possibly in the other direction. -/
def EdgeMoved (A : Affine ℚ) (e e' : Pt ℚ × Pt ℚ) : Prop := e' = (A.pt e.1, A.pt e.2) ∨ e' = (A.pt e.2, A.pt e.1)

/-- `c'` is the polygon `c` in the new coordinates, possibly in the other direction. -/
def PolyMoved (A : Affine ℚ) (c c' : List (Pt ℚ)) : Prop := c' = c.map A.pt ∨ c' = (c.map A.pt).reverse

theorem PolyMoved.inPoly (hA : A.det ≠ 0) {c c' : List (Pt ℚ)} (h : PolyMoved A c c') (hc : StrictlyConvex c) (hc' : StrictlyConvex c')
    (p : Pt ℚ) : InPoly c' (A.pt p) ↔ InPoly c p := by
  rw [← hc.convex.inFace, ← hc'.convex.inFace, ← Affine.inFace hA c p]
  rcases h with rfl | rfl
  · rfl
  · exact inFace_reverse

theorem sharesPiece_swap {a b : Pt ℚ} {S : Pt ℚ → Prop} (h : SharesPiece a b S) : SharesPiece b a S := by
  obtain ⟨hab, u, v, h0, h1, h2, h3, h4⟩ := h
  refine ⟨hab.symm, 1 - v, 1 - u, by linarith, by linarith, by linarith, ?_, ?_⟩
  · rw [lineAt_swap]; exact h4
  · rw [lineAt_swap]; exact h3

theorem sharesPiece_affine (hA : A.det ≠ 0) {a b : Pt ℚ} {S S' : Pt ℚ → Prop} (hS : ∀ p, S' (A.pt p) ↔ S p) :
    SharesPiece (A.pt a) (A.pt b) S' ↔ SharesPiece a b S := by
  unfold SharesPiece
  simp only [Affine.lineAt, hS, (Affine.injective hA).ne_iff]

theorem forall₂_at {α β : Type} {R : α → β → Prop} {l : List α} {l' : List β} (h : List.Forall₂ R l l') {k : Nat} {x : α}
    (hx : l[k]? = some x) : ∃ y, l'[k]? = some y ∧ R x y := by
  obtain ⟨k1, rfl⟩ := List.getElem?_eq_some_iff.1 hx
  have k2 : k < l'.length := by rw [← h.length_eq]; exact k1
  exact ⟨_, List.getElem?_eq_getElem k2, (List.forall₂_iff_get.1 h).2 k k1 k2⟩

/-- **C130**: two meshes and two lists of edges at integer coordinates. The second ones are the first ones in other coordinates (an
invertible affine map, so shifts, quarter turns, reflections, integer scales and shears are included), faces and edges possibly in the
other direction, and the trees may have other tuning parameters. In binary64 both queries report the same edges and faces, and the ends
of the pieces are those of the same exact piece up to `1 / 2 ^ 26`. -/
theorem C130_same_pieces (hA : A.det ≠ 0) (hT : Tols env m f) (hm' : m ≤ 1 / 2 ^ 20) (hf : f ≤ 1 / 2 ^ 38)
    (hm : WholeMesh env vertices faces fill cs) (ht : Makes env vertices faces fill nBuckets cellsPerLeaf t)
    (hm2 : WholeMesh env vertices' faces' fill' cs') (ht2 : Makes env vertices' faces' fill' nBuckets' cellsPerLeaf' t')
    (hcc : List.Forall₂ (PolyMoved A) cs cs') {edges edges' : List (Pt ℚ × Pt ℚ)} (he : ClearEdges cs edges)
    (he2 : ClearEdges cs' edges') (hee : List.Forall₂ (EdgeMoved A) edges edges')
    {nThreads nThreads' : Nat} (hn : 0 < nThreads) {sched : List Nat} (hs : sched.Perm (List.range nThreads))
    (hn' : 0 < nThreads') {sched' : List Nat} (hs' : sched'.Perm (List.range nThreads')) :
    ∃ ii jj xy ii' jj' xy', t.intersectEdges env (edges.map fun e => (fp e.1, fp e.2)) nThreads sched = .ok (ii, jj, xy) ∧
      t'.intersectEdges env (edges'.map fun e => (fp e.1, fp e.2)) nThreads' sched' = .ok (ii', jj', xy') ∧
      (∀ i j, (i, j) ∈ ii.zip jj ↔ (i, j) ∈ ii'.zip jj') ∧
      ∀ i j cd cd', (i, j, cd) ∈ ii.zip (jj.zip xy) → (i, j, cd') ∈ ii'.zip (jj'.zip xy') →
        ∃ e c p q u v u' v', edges[i]? = some e ∧ cs[j]? = some c ∧ ClipSpec e.1 e.2 (InPoly c) (some (p, q)) ∧
          cd = (some (fp u), some (fp v)) ∧ cd' = (some (fp u'), some (fp v')) ∧ Close26 u p ∧ Close26 v q ∧
          (edges'[i]? = some (A.pt e.1, A.pt e.2) ∧ Close26 u' (A.pt p) ∧ Close26 v' (A.pt q) ∨
            edges'[i]? = some (A.pt e.2, A.pt e.1) ∧ Close26 u' (A.pt q) ∧ Close26 v' (A.pt p)) := by
  obtain ⟨ii, jj, xy, h1, _, _, _, _, h2, h3⟩ := C129_pieces_exact_partial hT hm' hf hm.good ht hm.faces hm.small he hn hs
  obtain ⟨ii', jj', xy', k1, _, _, _, _, k2, k3⟩ := C129_pieces_exact_partial hT hm' hf hm2.good ht2 hm2.faces hm2.small he2 hn' hs'
  have hin : ∀ {j : Nat} {c c' : List (Pt ℚ)}, cs[j]? = some c → cs'[j]? = some c' → ∀ p, InPoly c' (A.pt p) ↔ InPoly c p := by
    intro j c c' hc hc'
    obtain ⟨c2, e2, hp⟩ := forall₂_at hcc hc
    cases hc'.symm.trans e2
    obtain ⟨_, _, _, s1, _⟩ := hm.faces.row hc
    obtain ⟨_, _, _, s2, _⟩ := hm2.faces.row hc'
    exact hp.inPoly hA s1 s2
  refine ⟨ii, jj, xy, ii', jj', xy', h1, k1, fun i j => ?_, ?_⟩
  · rw [h2, k2]
    constructor
    · rintro ⟨e, c, g1, g2, g3⟩
      obtain ⟨e', g1', r1⟩ := forall₂_at hee g1
      obtain ⟨c', g2', _⟩ := forall₂_at hcc g2
      have key := (sharesPiece_affine hA (hin g2 g2')).2 g3
      refine ⟨e', c', g1', g2', ?_⟩
      rcases r1 with rfl | rfl
      · exact key
      · exact sharesPiece_swap key
    · rintro ⟨e', c', g1', g2', g3⟩
      obtain ⟨e, g1, r1⟩ := forall₂_at hee.flip g1'
      obtain ⟨c, g2, _⟩ := forall₂_at hcc.flip g2'
      refine ⟨e, c, g1, g2, (sharesPiece_affine hA (hin g2 g2')).1 ?_⟩
      rcases r1 with rfl | rfl
      · exact g3
      · exact sharesPiece_swap g3
  · intro i j cd cd' hx hx'
    obtain ⟨e, c, p, q, p', q', g1, g2, rfl, g3, ⟨u, rfl, _, a1, a2⟩, v, rfl, _, b1, b2⟩ := h3 i j cd hx
    obtain ⟨e', c', P, Q, P', Q', g1', g2', rfl, g3', ⟨u', rfl, _, a1', a2'⟩, v', rfl, _, b1', b2'⟩ := k3 i j cd' hx'
    obtain ⟨e2, k4, r1⟩ := forall₂_at hee g1
    cases g1'.symm.trans k4
    have key := (Affine.clipSpec hA (hin g2 g2')).2 g3
    refine ⟨e, c, p, q, u, v, u', v', g1, g2, g3, rfl, rfl, ⟨a1, a2⟩, ⟨b1, b2⟩, ?_⟩
    rcases r1 with rfl | rfl
    · obtain ⟨rfl, rfl⟩ := Prod.mk.inj (Option.some.inj (key.unique g3'))
      exact Or.inl ⟨g1', ⟨a1', a2'⟩, b1', b2'⟩
    · obtain ⟨rfl, rfl⟩ := Prod.mk.inj (Option.some.inj (key.reverse.unique g3'))
      exact Or.inr ⟨g1', ⟨a1', a2'⟩, b1', b2'⟩

/-! ## Parts of edges -/

theorem lineAt_first (a b : Pt ℚ) (τ u : ℚ) : lineAt a (lineAt a b τ) u = lineAt a b (u * τ) := by
  apply Pt.ext' <;> simp only [lineAt] <;> ring

theorem lineAt_second (a b : Pt ℚ) (τ u : ℚ) : lineAt (lineAt a b τ) b u = lineAt a b (τ + u * (1 - τ)) := by
  apply Pt.ext' <;> simp only [lineAt] <;> ring

theorem lineAt_inj {a b : Pt ℚ} (hab : a ≠ b) {u v : ℚ} (h : lineAt a b u = lineAt a b v) : u = v := by
  have h1 := congrArg Pt.x h
  have h2 := congrArg Pt.y h
  simp only [lineAt] at h1 h2
  by_contra hne
  have e1 : (u - v) * (b.x - a.x) = 0 := by linarith
  have e2 : (u - v) * (b.y - a.y) = 0 := by linarith
  have hd : u - v ≠ 0 := sub_ne_zero.2 hne
  refine hab (Pt.ext' ?_ ?_)
  · linarith [(mul_eq_zero.1 e1).resolve_left hd]
  · linarith [(mul_eq_zero.1 e2).resolve_left hd]

/-- A piece of an edge is a piece of the first part or of the second part. -/
theorem sharesPiece_parts {a b : Pt ℚ} {τ : ℚ} (t0 : 0 ≤ τ) (t1 : τ ≤ 1) {l : List (Pt ℚ)} :
    SharesPiece a b (InPoly l) ↔ SharesPiece a (lineAt a b τ) (InPoly l) ∨ SharesPiece (lineAt a b τ) b (InPoly l) := by
  have e0 : lineAt a b 0 = a := by apply Pt.ext' <;> simp [lineAt]
  have e1 : lineAt a b 1 = b := by apply Pt.ext' <;> simp [lineAt]
  constructor
  · rintro ⟨hab, u, v, h0, h1, h2, h3, h4⟩
    rcases lt_or_ge u τ with g | g
    · -- the piece begins before the cut
      left
      have hτ : 0 < τ := lt_of_le_of_lt h0 g
      refine ⟨fun e => hτ.ne (lineAt_inj hab (e0.trans e)), u / τ, min v τ / τ, by positivity, ?_, ?_, ?_, ?_⟩
      · exact (div_lt_div_iff_of_pos_right hτ).2 (lt_min h1 g)
      · exact (div_le_one hτ).2 (min_le_right _ _)
      · rw [lineAt_first, div_mul_cancel₀ _ hτ.ne']; exact h3
      · rw [lineAt_first, div_mul_cancel₀ _ hτ.ne']
        have hd : 0 < v - u := by linarith
        have hc := h3.convex h4 (u := (min v τ - u) / (v - u)) (div_nonneg (by linarith [le_min h1.le g.le]) hd.le)
          ((div_le_one hd).2 (by linarith [min_le_left v τ]))
        have e : lineAt (lineAt a b u) (lineAt a b v) ((min v τ - u) / (v - u)) = lineAt a b (min v τ) := by
          apply Pt.ext' <;> simp only [lineAt] <;> field_simp <;> ring
        rwa [e] at hc
    · right
      have hτ : 0 < 1 - τ := by linarith
      refine ⟨fun e => (show τ ≠ 1 by linarith) (lineAt_inj hab (e.trans e1.symm)), (u - τ) / (1 - τ), (v - τ) / (1 - τ),
        div_nonneg (by linarith) hτ.le, ?_, ?_, ?_, ?_⟩
      · exact (div_lt_div_iff_of_pos_right hτ).2 (by linarith)
      · exact (div_le_one hτ).2 (by linarith)
      · rw [lineAt_second, div_mul_cancel₀ _ hτ.ne', add_sub_cancel]; exact h3
      · rw [lineAt_second, div_mul_cancel₀ _ hτ.ne', add_sub_cancel]; exact h4
  · rintro (⟨hab, u, v, h0, h1, h2, h3, h4⟩ | ⟨hab, u, v, h0, h1, h2, h3, h4⟩)
    · have hne : a ≠ b := by
        rintro rfl
        exact hab (Pt.ext' (by simp [lineAt]) (by simp [lineAt]))
      have hτ : 0 < τ := lt_of_le_of_ne t0 fun e => hab (by rw [← e, e0])
      rw [lineAt_first] at h3 h4
      exact ⟨hne, _, _, by positivity, mul_lt_mul_of_pos_right h1 hτ, by nlinarith, h3, h4⟩
    · have hne : a ≠ b := by
        rintro rfl
        exact hab (Pt.ext' (by simp [lineAt]) (by simp [lineAt]))
      have hτ : 0 < 1 - τ := lt_of_le_of_ne (by linarith) fun e => hab (by rw [show τ = 1 by linarith, e1])
      rw [lineAt_second] at h3 h4
      exact ⟨hne, _, _, by positivity, by nlinarith, by nlinarith, h3, h4⟩

/-- An edge in a compass direction and an integer point on it. -/
structure Cut (a c b : Pt ℚ) : Prop where
  run : Run a b
  compass : Compass a b
  whole : WholePt c
  on : ∃ τ, 0 ≤ τ ∧ τ ≤ 1 ∧ c = lineAt a b τ

theorem Cut.first {a c b : Pt ℚ} (h : Cut a c b) : Run a c ∧ Compass a c := by
  obtain ⟨⟨r1, r2, rx, ry⟩, hc, w, τ, t0, t1, rfl⟩ := h
  have ex : (lineAt a b τ).x - a.x = τ * (b.x - a.x) := by simp only [lineAt]; ring
  have ey : (lineAt a b τ).y - a.y = τ * (b.y - a.y) := by simp only [lineAt]; ring
  refine ⟨⟨r1, w, ?_, ?_⟩, ?_⟩
  · rw [ex, abs_mul, abs_of_nonneg t0]; nlinarith [abs_nonneg (b.x - a.x)]
  · rw [ey, abs_mul, abs_of_nonneg t0]; nlinarith [abs_nonneg (b.y - a.y)]
  · unfold Compass
    rw [ex, ey]
    rcases hc with h | h | h
    · exact Or.inl (by rw [h, mul_zero])
    · exact Or.inr (Or.inl (by rw [h, mul_zero]))
    · exact Or.inr (Or.inr (by rw [abs_mul, abs_mul, h]))

theorem Cut.swap {a c b : Pt ℚ} (h : Cut a c b) : Cut b c a := by
  obtain ⟨⟨r1, r2, rx, ry⟩, hc, w, τ, t0, t1, rfl⟩ := h
  refine ⟨⟨r2, r1, by rwa [abs_sub_comm], by rwa [abs_sub_comm]⟩, ?_, w, 1 - τ, by linarith, by linarith, (lineAt_swap _ _ _).symm⟩
  rcases hc with h | h | h
  · exact Or.inl (by linarith)
  · exact Or.inr (Or.inl (by linarith))
  · exact Or.inr (Or.inr (by rwa [abs_sub_comm a.x, abs_sub_comm a.y]))

theorem Cut.second {a c b : Pt ℚ} (h : Cut a c b) : Run c b ∧ Compass c b := by
  obtain ⟨⟨r1, r2, rx, ry⟩, hc⟩ := h.swap.first
  refine ⟨⟨r2, r1, by rwa [abs_sub_comm], by rwa [abs_sub_comm]⟩, ?_⟩
  rcases hc with h | h | h
  · exact Or.inl (by linarith)
  · exact Or.inr (Or.inl (by linarith))
  · exact Or.inr (Or.inr (by rwa [abs_sub_comm b.x, abs_sub_comm b.y]))

/-- **C131**: edges in compass directions are divided at points with integer coordinates, for example into the segments of a path along
a grid. In binary64 an edge is reported with a face exactly if the first or the second part is reported with it. -/
theorem C131_parts (hT : Tols env m f) (hm' : m ≤ 1 / 2 ^ 20) (hf : f ≤ 1 / 2 ^ 38) (hm : WholeMesh env vertices faces fill cs)
    (ht : Makes env vertices faces fill nBuckets cellsPerLeaf t) {cuts : List (Pt ℚ × Pt ℚ × Pt ℚ)}
    (hc : ∀ k ∈ cuts, Cut k.1 k.2.1 k.2.2) {nThreads : Nat} (hn : 0 < nThreads) {sched : List Nat}
    (hs : sched.Perm (List.range nThreads)) :
    ∃ ii jj xy ii₁ jj₁ xy₁ ii₂ jj₂ xy₂,
      t.intersectEdges env (cuts.map fun k => (fp k.1, fp k.2.2)) nThreads sched = .ok (ii, jj, xy) ∧
      t.intersectEdges env (cuts.map fun k => (fp k.1, fp k.2.1)) nThreads sched = .ok (ii₁, jj₁, xy₁) ∧
      t.intersectEdges env (cuts.map fun k => (fp k.2.1, fp k.2.2)) nThreads sched = .ok (ii₂, jj₂, xy₂) ∧
      ∀ i j, (i, j) ∈ ii.zip jj ↔ (i, j) ∈ ii₁.zip jj₁ ∨ (i, j) ∈ ii₂.zip jj₂ := by
  have run : ∀ g : Pt ℚ × Pt ℚ × Pt ℚ → Pt ℚ × Pt ℚ, (∀ k ∈ cuts, Run (g k).1 (g k).2 ∧ Compass (g k).1 (g k).2) →
      ∃ ii jj xy, t.intersectEdges env (cuts.map fun k => (fp (g k).1, fp (g k).2)) nThreads sched = .ok (ii, jj, xy) ∧
        ∀ i j, (i, j) ∈ ii.zip jj ↔ ∃ k c, cuts[i]? = some k ∧ cs[j]? = some c ∧ SharesPiece (g k).1 (g k).2 (InPoly c) := by
    intro g hg
    obtain ⟨ii, jj, xy, h1, _, _, _, _, h2, _⟩ := C128_pieces_exact hT hm' hf hm.good ht hm.faces hm.small (edges := cuts.map g)
      (fun e he => by
        obtain ⟨k, hk, rfl⟩ := List.mem_map.1 he
        exact hg k hk) hn hs
    refine ⟨ii, jj, xy, by rw [← h1, List.map_map]; rfl, fun i j => (h2 i j).trans ?_⟩
    rw [List.getElem?_map]
    constructor
    · rintro ⟨e, c, g1, g2, g3⟩
      obtain ⟨k, hk, rfl⟩ := Option.map_eq_some_iff.1 g1
      exact ⟨k, c, hk, g2, g3⟩
    · rintro ⟨k, c, hk, g2, g3⟩
      exact ⟨g k, c, by rw [hk]; rfl, g2, g3⟩
  obtain ⟨ii, jj, xy, h1, h2⟩ := run (fun k => (k.1, k.2.2)) fun k hk => ⟨(hc k hk).run, (hc k hk).compass⟩
  obtain ⟨ii₁, jj₁, xy₁, k1, k2⟩ := run (fun k => (k.1, k.2.1)) fun k hk => (hc k hk).first
  obtain ⟨ii₂, jj₂, xy₂, l1, l2⟩ := run (fun k => (k.2.1, k.2.2)) fun k hk => (hc k hk).second
  refine ⟨ii, jj, xy, ii₁, jj₁, xy₁, ii₂, jj₂, xy₂, h1, k1, l1, fun i j => ?_⟩
  rw [h2, k2, l2]
  constructor
  · rintro ⟨k, c, g1, g2, g3⟩
    obtain ⟨τ, t0, t1, e⟩ := (hc k (List.mem_of_getElem? g1)).on
    rcases (sharesPiece_parts t0 t1).1 g3 with g | g
    · exact Or.inl ⟨k, c, g1, g2, by rw [e]; exact g⟩
    · exact Or.inr ⟨k, c, g1, g2, by rw [e]; exact g⟩
  · rintro (⟨k, c, g1, g2, g3⟩ | ⟨k, c, g1, g2, g3⟩) <;> obtain ⟨τ, t0, t1, e⟩ := (hc k (List.mem_of_getElem? g1)).on <;>
      simp only [e] at g3
    · exact ⟨k, c, g1, g2, (sharesPiece_parts t0 t1).2 (Or.inl g3)⟩
    · exact ⟨k, c, g1, g2, (sharesPiece_parts t0 t1).2 (Or.inr g3)⟩

/-! ## A concrete case -/

set_option synthInstance.maxSize 1000

/-- The coordinates are exchanged, and the origin is moved to the corner of the first cell. -/
def _root_.Celltree.Ex.flip : Affine ℚ := ⟨0, 1, 1, 0, -463000, -155000⟩

def _root_.Celltree.Ex.flipVerts : List (Pt Fl) := [Ex.wholePt 0 0, Ex.wholePt 1 6, Ex.wholePt 9 4, Ex.wholePt 10 0, Ex.wholePt 0 10,
  Ex.wholePt 10 10]
def _root_.Celltree.Ex.flipCell : List (Pt ℚ) := [⟨10, 0⟩, ⟨9, 4⟩, ⟨1, 6⟩, ⟨0, 0⟩]
def _root_.Celltree.Ex.flipCell' : List (Pt ℚ) := [⟨9, 4⟩, ⟨10, 10⟩, ⟨0, 10⟩, ⟨1, 6⟩]
def _root_.Celltree.Ex.flipEdges : List (Pt ℚ × Pt ℚ) := [(⟨1, 12⟩, ⟨1, 2⟩), (⟨0, -10⟩, ⟨0, 20⟩)]

theorem _root_.Celltree.Ex.whole_mesh : WholeMesh Fl.env Ex.wholeVerts Ex.wholeFaces (-1) [Ex.wholeCell, Ex.wholeCell'] :=
  ⟨Ex.whole_good, Ex.whole_wholeFaces, by decide +kernel⟩

theorem _root_.Celltree.Ex.flip_mesh : WholeMesh Fl.env Ex.flipVerts Ex.wholeFaces (-1) [Ex.flipCell, Ex.flipCell'] := by
  refine ⟨⟨⟨by decide, fun r hr => ?_⟩, ?_, nofun, nofun⟩, .cons ⟨by decide +kernel, by decide +kernel,
    Ex.wholePoly_iff (by decide +kernel) (by decide +kernel)⟩ (.cons ⟨by decide +kernel, by decide +kernel,
    Ex.wholePoly_iff (by decide +kernel) (by decide +kernel)⟩ .nil), by decide +kernel⟩
  · simp only [Ex.wholeFaces, List.mem_cons, List.not_mem_nil, or_false] at hr
    rcases hr with rfl | rfl <;> exact ⟨by decide, by decide, by decide⟩
  · intro r hr p hp
    have : ∀ p ∈ Ex.flipVerts, p.x ≠ Fl.nan ∧ p.y ≠ Fl.nan := by decide +kernel
    unfold facePts at hp
    obtain ⟨k, _, hk⟩ := List.mem_filterMap.1 hp
    exact this p (List.mem_of_getElem? hk)

theorem ClearEdges.of_compass {edges : List (Pt ℚ × Pt ℚ)} (h : ∀ e ∈ edges, Run e.1 e.2 ∧ Compass e.1 e.2) : ClearEdges cs edges :=
  fun e he => ⟨(h e he).1, fun hne => Compass.steps (h e he).1 hne (h e he).2, fun _ _ _ _ => Or.inl (h e he).2⟩

theorem _root_.Celltree.Ex.flip_ok : ∀ e ∈ Ex.flipEdges, Run e.1 e.2 ∧ Compass e.1 e.2 := by
  intro e he
  simp only [Ex.flipEdges, List.mem_cons, List.not_mem_nil, or_false] at he
  rcases he with rfl | rfl
  · exact ⟨Ex.whole_run (Ex.wholePoly_iff (by decide +kernel) (by decide +kernel)) (by decide +kernel) (by decide +kernel), by unfold Compass; decide +kernel⟩
  · exact ⟨Ex.whole_run (Ex.wholePoly_iff (by decide +kernel) (by decide +kernel)) (by decide +kernel) (by decide +kernel), by unfold Compass; decide +kernel⟩

/-- The cells of C121 and their mirror images near the origin; the first edge is also reversed. -/
example : ∃ t t' ii jj xy ii' jj' xy', Makes Fl.env Ex.wholeVerts Ex.wholeFaces (-1) 4 2 t ∧
    Makes Fl.env Ex.flipVerts Ex.wholeFaces (-1) 8 1 t' ∧
    t.intersectEdges Fl.env (Ex.eastEdges.map fun e => (fp e.1, fp e.2)) 1 [0] = .ok (ii, jj, xy) ∧
    t'.intersectEdges Fl.env (Ex.flipEdges.map fun e => (fp e.1, fp e.2)) 2 [1, 0] = .ok (ii', jj', xy') ∧
    (∀ i j, (i, j) ∈ ii.zip jj ↔ (i, j) ∈ ii'.zip jj') ∧ (0, 1) ∈ ii'.zip jj' := by
  obtain ⟨t, h1, _⟩ := bind_eq_ok.1 (show (CellTree.init Fl.env Ex.wholeVerts Ex.wholeFaces (-1) 4 2 [0, 1] >>= fun t => .ok 0) =
    (.ok 0 : M Nat) by decide +kernel)
  obtain ⟨t', h1', _⟩ := bind_eq_ok.1 (show (CellTree.init Fl.env Ex.flipVerts Ex.wholeFaces (-1) 8 1 [0, 1] >>= fun t => .ok 0) =
    (.ok 0 : M Nat) by decide +kernel)
  have hmk : Makes Fl.env Ex.wholeVerts Ex.wholeFaces (-1) 4 2 t := ⟨_, by decide, h1⟩
  have hmk' : Makes Fl.env Ex.flipVerts Ex.wholeFaces (-1) 8 1 t' := ⟨_, by decide, h1'⟩
  obtain ⟨ii, jj, xy, ii', jj', xy', g1, g2, g3, _⟩ := C130_same_pieces (A := Ex.flip) (by decide +kernel) Ex.gable_tols (by decide +kernel)
    (by decide +kernel) Ex.whole_mesh hmk Ex.flip_mesh hmk' (.cons (Or.inr (by decide +kernel)) (.cons (Or.inr (by decide +kernel)) .nil))
    (ClearEdges.of_compass Ex.east_ok) (ClearEdges.of_compass Ex.flip_ok)
    (.cons (Or.inr (by decide +kernel)) (.cons (Or.inl (by decide +kernel)) .nil)) (nThreads := 1) (by decide) (sched := [0]) (by decide)
    (nThreads' := 2) (by decide) (sched' := [1, 0]) (by decide)
  refine ⟨t, t', ii, jj, xy, ii', jj', xy', hmk, hmk', g1, g2, g3, ?_⟩
  obtain ⟨_, _, _, k1, _, _, _, _, k2, _⟩ := C128_pieces_exact Ex.gable_tols (by decide +kernel) (by decide +kernel) Ex.flip_mesh.good hmk'
    Ex.flip_mesh.faces Ex.flip_mesh.small Ex.flip_ok (nThreads := 2) (by decide) (sched := [1, 0]) (by decide)
  cases g2.symm.trans k1
  exact (k2 0 1).2 ⟨_, _, rfl, rfl, by decide +kernel, 1 / 5, 3 / 5, by decide +kernel⟩

/-- An edge through two cells, divided at the corner that they share. -/
def _root_.Celltree.Ex.cuts : List (Pt ℚ × Pt ℚ × Pt ℚ) := [(⟨155002, 463001⟩, ⟨155006, 463001⟩, ⟨155012, 463001⟩)]

example : ∃ t ii jj xy ii₁ jj₁ xy₁ ii₂ jj₂ xy₂, Makes Fl.env Ex.wholeVerts Ex.wholeFaces (-1) 4 2 t ∧
    t.intersectEdges Fl.env (Ex.cuts.map fun k => (fp k.1, fp k.2.2)) 1 [0] = .ok (ii, jj, xy) ∧
    t.intersectEdges Fl.env (Ex.cuts.map fun k => (fp k.1, fp k.2.1)) 1 [0] = .ok (ii₁, jj₁, xy₁) ∧
    t.intersectEdges Fl.env (Ex.cuts.map fun k => (fp k.2.1, fp k.2.2)) 1 [0] = .ok (ii₂, jj₂, xy₂) ∧
    ∀ i j, (i, j) ∈ ii.zip jj ↔ (i, j) ∈ ii₁.zip jj₁ ∨ (i, j) ∈ ii₂.zip jj₂ := by
  obtain ⟨t, h1, _⟩ := bind_eq_ok.1 (show (CellTree.init Fl.env Ex.wholeVerts Ex.wholeFaces (-1) 4 2 [0, 1] >>= fun t => .ok 0) =
    (.ok 0 : M Nat) by decide +kernel)
  have hmk : Makes Fl.env Ex.wholeVerts Ex.wholeFaces (-1) 4 2 t := ⟨_, by decide, h1⟩
  obtain ⟨ii, jj, xy, ii₁, jj₁, xy₁, ii₂, jj₂, xy₂, g⟩ := C131_parts Ex.gable_tols (by decide +kernel) (by decide +kernel) Ex.whole_mesh hmk
    (cuts := Ex.cuts) (fun k hk => by
      simp only [Ex.cuts, List.mem_cons, List.not_mem_nil, or_false] at hk
      subst hk
      exact ⟨Ex.whole_run (Ex.wholePoly_iff (by decide +kernel) (by decide +kernel)) (by decide +kernel) (by decide +kernel),
        by unfold Compass; decide +kernel, Ex.wholePt_iff (by decide +kernel) (by decide +kernel), 2 / 5, by decide +kernel,
        by decide +kernel, by decide +kernel⟩) (nThreads := 1) (by decide) (sched := [0]) (by decide)
  exact ⟨t, ii, jj, xy, ii₁, jj₁, xy₁, ii₂, jj₂, xy₂, hmk, g⟩

end Celltree.Fl
