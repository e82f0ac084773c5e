import Verif.Proofs.FloatWholeBoxes
import Verif.Props.FloatWholeAreas
import Verif.Props.FloatWholeCross
import Verif.Props.FloatPieces

/-!
# Pieces of edges at integer coordinates in binary64: C128
-/

set_option linter.unusedSectionVars false

namespace Celltree.Fl

variable {env : Env Fl} {vertices : List (Pt Fl)} {faces : IntArr} {fill nBuckets cellsPerLeaf : Int} {t : CellTree Fl}
  {cs : List (List (Pt ℚ))} {m f : ℚ}

theorem wholeBox_of {l : List (Pt Fl)} (h : ∀ v ∈ l, ∃ q, v = fp q ∧ WholePt q) {b : Box Fl} (hb : IsBBox l b) :
    ∃ c, b = fbox c ∧ WholeBox c ∧ c.Nonempty := by
  obtain ⟨p1, m1, e1⟩ := hb.left
  obtain ⟨p2, m2, e2⟩ := hb.right
  obtain ⟨p3, m3, e3⟩ := hb.bottom
  obtain ⟨p4, m4, e4⟩ := hb.top
  have c1 := (hb.contains p1 m1).2.1
  have c3 := (hb.contains p3 m3).2.2.2
  obtain ⟨q1, rfl, n1⟩ := h p1 m1
  obtain ⟨q2, rfl, n2⟩ := h p2 m2
  obtain ⟨q3, rfl, n3⟩ := h p3 m3
  obtain ⟨q4, rfl, n4⟩ := h p4 m4
  simp only [fp] at e1 e2 e3 e4 c1 c3
  rw [← e2, le_fin] at c1
  rw [← e4, le_fin] at c3
  refine ⟨⟨q1.x, q2.x, q3.y, q4.y⟩, ?_, ⟨n1.1, n2.1, n3.2, n4.2⟩, ⟨c1, c3⟩⟩
  unfold fbox
  simp only
  rw [e1, e2, e3, e4]

/-- The tolerance for a face of integer size. -/
theorem whole_faceTol (hT : Tols env m f) (hm : m ≤ 1 / 2 ^ 20) (hf : f ≤ 1 / 2 ^ 38) {c : Box ℚ} (hc : WholeBox c) (hn : c.Nonempty)
    (hx : c.xmax - c.xmin ≤ 2 ^ 12) (hy : c.ymax - c.ymin ≤ 2 ^ 12) :
    ∃ tol, fmax env.minTol (env.tolFactor * fmax (fin c.xmax - fin c.xmin) (fin c.ymax - fin c.ymin)) = fin tol ∧
      1 / 2 ^ 200 ≤ tol ∧ tol ≤ 1 / 2 ^ 20 := by
  rw [whole_sub hc.xmax hc.xmin (by norm_num), whole_sub hc.ymax hc.ymin (by norm_num), fmax_fin, hT.min_eq, hT.factor_eq]
  have hM0 : 0 ≤ max (c.xmax - c.xmin) (c.ymax - c.ymin) := le_max_of_le_left (sub_nonneg.2 hn.x)
  have hM1 : max (c.xmax - c.xmin) (c.ymax - c.ymin) ≤ 2 ^ 12 := max_le hx hy
  generalize max (c.xmax - c.xmin) (c.ymax - c.ymin) = W at *
  have h0 : 0 ≤ f * W := mul_nonneg hT.f_nonneg hM0
  have h1 : f * W ≤ 1 / 2 ^ 20 := by
    calc f * W ≤ 1 / 2 ^ 38 * 2 ^ 12 := mul_le_mul hf hM1 hM0 (by positivity)
      _ ≤ _ := by norm_num
  rw [mul_fin (k := 0) (by norm_num) (by rw [abs_of_nonneg h0]; exact h1.trans (by norm_num)), fmax_fin]
  refine ⟨_, rfl, le_trans (le_trans (by norm_num) hT.m_ge) (le_max_left _ _), max_le hm ?_⟩
  exact rq_le (isRep_two_pow_inv (by norm_num)) h1

/-- **C128**, **C129**, one face: a segment between points with integer coordinates, in a compass direction or with not too large extents
(`Steps`), is clipped to a strictly convex face at integer coordinates. In binary64 there is a result exactly if a piece of positive length is in the face. Its
ends are those of the piece: exactly if they are ends of the segment, and up to `1 / 2 ^ 26` otherwise. -/
theorem C128_clip_exact {a b : Pt ℚ} (h : Run a b) (hab : a ≠ b) (hd : Steps a b) {tol : ℚ} (t1 : 1 / 2 ^ 200 ≤ tol)
    (t2 : tol ≤ 1 / 2 ^ 20) {l : List (Pt ℚ)} (hl : StrictlyConvex l) (hw : ∀ v ∈ l, WholePt v)
    (hs : ∀ v ∈ l, ∀ w ∈ l, |w.x - v.x| ≤ 2 ^ 12 ∧ |w.y - v.y| ≤ 2 ^ 12) :
    (¬ SharesPiece a b (InPoly l) ∧ cyrusBeck (fp a) (fp b) (l.map fp) (fin tol) = .ok none) ∨
      ∃ p q p' q', cyrusBeck (fp a) (fp b) (l.map fp) (fin tol) = .ok (some (p', q')) ∧
        ClipSpec a b (InPoly l) (some (p, q)) ∧ EndAcc a b p p' ∧ EndAcc a b q q' := by
  obtain ⟨r, r', h1, h2, h3⟩ := whole_cyrusBeck h hab hd t1 t2 hl hw hs
  match r, r', h3 with
  | none, none, _ =>
    refine Or.inl ⟨fun g => ?_, h2⟩
    have := (h1.isSome_iff hab).2 g
    simp at this
  | some (p, q), some (p', q'), h3 => exact Or.inr ⟨p, q, p', q', h2, h1, h3.1, h3.2⟩

/-- **C128**, one box: the clip of such a segment to a box at integer coordinates is exact in binary64. -/
theorem C128_box_exact {c : Box ℚ} (hc : WholeBox c) (hn : c.Nonempty) {a b : Pt ℚ} (ha : WholePt a) (hb : WholePt b)
    (hab : a ≠ b) (hd : Compass a b) :
    ∃ r : Clip ℚ, ClipSpec a b (InBox c) r ∧
      cohenSutherland (fp a) (fp b) (fbox c) = .ok (r.map fun p => (fp p.1, fp p.2)) := by
  obtain ⟨r, h1, _, h3⟩ := cohenSutherland_spec hn a b
  exact ⟨r, h3 hab, by rw [whole_cohenSutherland hc hn ha hb hd, h1]; rfl⟩

section
variable {bt : BT} {nb cpl : Nat}

theorem whole_edgeFace (hT : Tols env m f) (hm' : m ≤ 1 / 2 ^ 20) (hf : f ≤ 1 / 2 ^ 38)
    (hc : Constructed env vertices faces fill nb cpl t bt) (hcol : faces.ncol ≤ maxNVertex)
    (hv : ValidFaces vertices.length fill faces) {a b : Pt ℚ} (h : Run a b) (hd : a ≠ b → Steps a b) {j : Nat} {r : List Int}
    (hj : faces.rows[j]? = some r) {c : List (Pt ℚ)} (fc : FaceIs vertices fill r c) (sc : StrictlyConvex c) (wc : WholePoly c)
    (hs : ∀ v ∈ c, ∀ w ∈ c, |w.x - v.x| ≤ 2 ^ 12 ∧ |w.y - v.y| ≤ 2 ^ 12) (hbx : ∀ box, IsBBox c box → BoxClear box a b) :
    ∃ box res, t.data.bbCoords[j]? = some (fbox box) ∧ IsBBox c box ∧ edgeFaceIntersect env t.data (fp a) (fp b) j = .ok res ∧
      (res.1 = true ↔ SharesPiece a b (InPoly c)) ∧ ∀ cd, res = (true, cd) → ∃ p q p' q', cd = (some p', some q') ∧
        ClipSpec a b (InPoly c) (some (p, q)) ∧ EndAcc a b p p' ∧ EndAcc a b q q' := by
  obtain ⟨bx, hb, hb'⟩ := hc.boxes.box j r hj
  have hpts : ∀ v ∈ facePts vertices fill r, ∃ q, v = fp q ∧ q ∈ c := by
    intro v hv
    obtain ⟨q, hq, e⟩ := (fc.mem v).1 hv
    exact ⟨q, e.symm, hq⟩
  obtain ⟨box, rfl, wb, nb⟩ := wholeBox_of (fun v hv => by
    obtain ⟨q, e, hq⟩ := hpts v hv
    exact ⟨q, e, wc.corner q hq⟩) hb'
  have hbc : IsBBox c box := bbox_of_map (hb'.of_mem fun p => by
    rw [fc.mem, List.mem_map])
  have hsx : box.xmax - box.xmin ≤ 2 ^ 12 ∧ box.ymax - box.ymin ≤ 2 ^ 12 := by
    obtain ⟨p1, m1, e1⟩ := hbc.left
    obtain ⟨p2, m2, e2⟩ := hbc.right
    obtain ⟨p3, m3, e3⟩ := hbc.bottom
    obtain ⟨p4, m4, e4⟩ := hbc.top
    rw [← e1, ← e2, ← e3, ← e4]
    exact ⟨le_of_abs_le (hs _ m1 _ m2).1, le_of_abs_le (hs _ m3 _ m4).2⟩
  obtain ⟨tol, et, t1, t2⟩ := whole_faceTol hT hm' hf wb nb hsx.1 hsx.2
  obtain ⟨s, hs1, hs2, hs3⟩ := whole_boxTest wb nb h (hbx box hbc)
  obtain ⟨h1, -, -⟩ := hc.elements.polygon hcol hj
  have hrow : Row vertices.length faces.ncol (rowIndices fill r) :=
    (hv.rows r (List.mem_of_getElem? hj)).row (hv.rect r (List.mem_of_getElem? hj))
  rw [whole_stored sc wc hrow fc] at h1
  have mono : SharesPiece a b (InPoly c) → SharesPiece a b (InBox box) := fun g => g.mono fun p hp => InPoly.inBox sc.convex hbc hp
  refine ⟨box, ?_⟩
  unfold edgeFaceIntersect
  rw [rd_of_some hb, ok_bind, hs1, ok_bind]
  cases s with
  | none =>
    refine ⟨_, hb, hbc, rfl, ⟨fun g => (by cases g), fun g => ?_⟩, fun cd g => by cases g⟩
    exact absurd rfl (hs2 (mono g))
  | some s =>
    have hsp : a ≠ b := hs3 (by simp)
    obtain ⟨B, e1, _⟩ := hc.elements.row j r hj
    rw [rd_of_some e1, ok_bind] at h1
    simp only
    rw [rd_of_some e1, ok_bind, hc.vertices_eq, h1, ok_bind]
    have etol : fmax env.minTol (env.tolFactor * fmax ((fbox box).xmax - (fbox box).xmin) ((fbox box).ymax - (fbox box).ymin)) = fin tol := et
    rw [etol]
    rcases C128_clip_exact h hsp (hd hsp) t1 t2 sc wc.corner hs with ⟨g1, g2⟩ | ⟨p, q, p', q', g1, g2, g3, g4⟩
    · rw [g2]
      exact ⟨_, hb, hbc, rfl, ⟨fun g => (by cases g), fun g => (g1 g).elim⟩, fun cd g => by cases g⟩
    · rw [g1]
      refine ⟨_, hb, hbc, rfl, ⟨fun _ => (g2.isSome_iff hsp).1 rfl, fun _ => rfl⟩, fun cd g => ?_⟩
      refine ⟨p, q, p', q', ?_, g2, g3, g4⟩
      exact (congrArg Prod.snd g).symm

end

/-- **C129**: as C128, for edges in any direction. The extents of the edge are at most `2 ^ 12`, or it consists of equal steps (`Steps`).
If it is not in a compass direction then it does not touch a corner of the bounding box of a face or of the mesh. Missing: edges in other
directions through such a corner. There the query need not end, see `C129_never_ends`. -/
theorem C129_pieces_exact_partial (hT : Tols env m f) (hm' : m ≤ 1 / 2 ^ 20) (hf : f ≤ 1 / 2 ^ 38) (hm : GoodMesh env vertices faces fill)
    (ht : Makes env vertices faces fill nBuckets cellsPerLeaf t) (hcs : WholeFaces vertices fill faces cs)
    (hsm : ∀ c ∈ cs, ∀ v ∈ c, ∀ w ∈ c, |w.x - v.x| ≤ 2 ^ 12 ∧ |w.y - v.y| ≤ 2 ^ 12) {edges : List (Pt ℚ × Pt ℚ)}
    (he : ∀ e ∈ edges, Run e.1 e.2 ∧ (e.1 ≠ e.2 → Steps e.1 e.2) ∧ ∀ l, l = cs.flatten ∨ l ∈ cs → ∀ box, IsBBox l box → BoxClear box e.1 e.2)
    {nThreads : Nat} (hn : 0 < nThreads) {sched : List Nat}
    (hs : sched.Perm (List.range nThreads)) :
    ∃ ii jj xy, t.intersectEdges env (edges.map fun e => (fp e.1, fp e.2)) nThreads sched = .ok (ii, jj, xy) ∧
      ii.length = jj.length ∧ jj.length = xy.length ∧ (ii.zip jj).Nodup ∧ ii.Pairwise (· ≤ ·) ∧
      (∀ i j, (i, j) ∈ ii.zip jj ↔ ∃ e c, edges[i]? = some e ∧ cs[j]? = some c ∧ SharesPiece e.1 e.2 (InPoly c)) ∧
      ∀ i j cd, (i, j, cd) ∈ ii.zip (jj.zip xy) → ∃ e c p q p' q', edges[i]? = some e ∧ cs[j]? = some c ∧ cd = (some p', some q') ∧
        ClipSpec e.1 e.2 (InPoly c) (some (p, q)) ∧ EndAcc e.1 e.2 p p' ∧ EndAcc e.1 e.2 q q' := by
  obtain ⟨hcol, _, bt, hc⟩ := ht.constructed' hm
  have hnum : ∀ r ∈ faces.rows, ∀ v ∈ facePts vertices fill r, ∃ q, v = fp q ∧ WholePt q := by
    intro r hr v hv
    obtain ⟨k, hk⟩ := List.mem_iff_getElem?.1 hr
    obtain ⟨c, _, fc, _, wc⟩ := hcs.at hk
    obtain ⟨q, hq, e⟩ := (fc.mem v).1 hv
    exact ⟨q, e.symm, wc.corner q hq⟩
  have hB := treeBox_bbox hc (fun r hr v hv => by
    obtain ⟨q, e, _⟩ := hnum r hr v hv
    exact ⟨q, e⟩)
  obtain ⟨C, eC, wC, nC⟩ := wholeBox_of (fun v hv => by
    obtain ⟨r, hr, hv⟩ := List.mem_flatMap.1 hv
    exact hnum r hr v hv) hB
  have hBC : IsBBox cs.flatten C := by
    refine bbox_of_map (eC ▸ hB.of_mem fun p => ?_)
    rw [List.mem_map, List.mem_flatMap]
    constructor
    · rintro ⟨q, hq, e⟩
      obtain ⟨c, hc', hq⟩ := List.mem_flatten.1 hq
      obtain ⟨k, ec⟩ := List.mem_iff_getElem?.1 hc'
      obtain ⟨r, hr, fc, _⟩ := hcs.row ec
      exact ⟨r, List.mem_of_getElem? hr, (fc.mem p).2 ⟨q, hq, e⟩⟩
    · rintro ⟨r, hr, hp⟩
      obtain ⟨k, hk⟩ := List.mem_iff_getElem?.1 hr
      obtain ⟨c, ec, fc, _⟩ := hcs.at hk
      obtain ⟨q, hq, e⟩ := (fc.mem p).1 hp
      exact ⟨q, List.mem_flatten.2 ⟨c, List.mem_of_getElem? ec, hq⟩, e⟩
  have face : ∀ (a b : Pt ℚ), Run a b → (a ≠ b → Steps a b) → (∀ l, l = cs.flatten ∨ l ∈ cs → ∀ box, IsBBox l box → BoxClear box a b) →
      ∀ (j : Nat) r, faces.rows[j]? = some r → ∀ c, cs[j]? = some c →
      ∃ box res, t.data.bbCoords[j]? = some (fbox box) ∧ IsBBox c box ∧ edgeFaceIntersect env t.data (fp a) (fp b) j = .ok res ∧
        (res.1 = true ↔ SharesPiece a b (InPoly c)) ∧ ∀ cd, res = (true, cd) → ∃ p q p' q', cd = (some p', some q') ∧
          ClipSpec a b (InPoly c) (some (p, q)) ∧ EndAcc a b p p' ∧ EndAcc a b q q' := by
    intro a b h hd hbx j r hj c ec
    obtain ⟨c', ec', fc, sc, wc⟩ := hcs.at hj
    rw [ec] at ec'
    cases ec'
    exact whole_edgeFace hT hm' hf hc hcol hm.valid h hd hj fc sc wc (hsm c (List.mem_of_getElem? ec))
      (hbx c (Or.inr (List.mem_of_getElem? ec)))
  have htotal : ∀ e ∈ edges, EdgeTotal t.data (edgeFaceIntersect env t.data) (fp e.1) (fp e.2) := by
    intro e hmem
    obtain ⟨h, hd, hbx⟩ := he e hmem
    refine ⟨?_, fun nd _ _ => edgeSides_fl nd _ _ _, ?_⟩
    · rw [eC]
      obtain ⟨r, g, _⟩ := whole_boxTest wC nC h (hbx _ (Or.inl rfl) C hBC)
      exact ⟨_, g⟩
    · intro j hj
      have hj' : j < faces.rows.length := by rw [← hc.boxes.length]; exact hj
      obtain ⟨c, ec, _⟩ := hcs.at (List.getElem?_eq_getElem hj')
      obtain ⟨_, res, _, _, g, _⟩ := face e.1 e.2 h hd hbx j _ (List.getElem?_eq_getElem hj') c ec
      exact ⟨res, g⟩
  obtain ⟨hnd, hsorted⟩ := edgeAll_nodup (isect := edgeFaceIntersect env t.data) hc.tree (edges.map fun e => (fp e.1, fp e.2))
  have hmem : ∀ i j cd, (i, j, cd) ∈ edgeAll t.data bt (edgeFaceIntersect env t.data) (edges.map fun e => (fp e.1, fp e.2)) ↔
      ∃ e, edges[i]? = some e ∧ (j, cd) ∈ edgeHits t.data bt (edgeFaceIntersect env t.data) (fp e.1, fp e.2) := by
    intro i j cd
    rw [mem_edgeAll]
    simp only [List.getElem?_map, Option.map_eq_some_iff]
    constructor
    · rintro ⟨q, ⟨e, h1, rfl⟩, h2⟩; exact ⟨e, h1, h2⟩
    · rintro ⟨e, h1, h2⟩; exact ⟨_, ⟨e, h1, rfl⟩, h2⟩
  have sound : ∀ i j cd, (i, j, cd) ∈ edgeAll t.data bt (edgeFaceIntersect env t.data) (edges.map fun e => (fp e.1, fp e.2)) →
      ∃ e c, edges[i]? = some e ∧ cs[j]? = some c ∧ SharesPiece e.1 e.2 (InPoly c) ∧ ∃ p q p' q', cd = (some p', some q') ∧
        ClipSpec e.1 e.2 (InPoly c) (some (p, q)) ∧ EndAcc e.1 e.2 p p' ∧ EndAcc e.1 e.2 q q' := by
    intro i j cd hx
    obtain ⟨e, h1, h2⟩ := (hmem i j cd).1 hx
    obtain ⟨h, hd, hbx⟩ := he e (List.mem_of_getElem? h1)
    obtain ⟨g1, g2, _⟩ := edgeHits_sound hc.tree h2
    simp only at g1 g2
    have hj : j < faces.rows.length := by rw [← hc.boxes.length]; exact g1
    obtain ⟨c, ec, _⟩ := hcs.at (List.getElem?_eq_getElem hj)
    obtain ⟨_, res, _, _, g, k1, k2⟩ := face e.1 e.2 h hd hbx j _ (List.getElem?_eq_getElem hj) c ec
    rw [g2] at g
    cases g
    exact ⟨e, c, h1, ec, k1.1 rfl, k2 cd rfl⟩
  refine ⟨_, _, _, locateEdges_spec hc.tree _ (fun q hq => ?_) hn hs, by simp, by simp, ?_, hsorted, ?_, ?_⟩
  · obtain ⟨e, hmem, rfl⟩ := List.mem_map.1 hq
    exact (htotal e hmem).runs hc.tree
  · rw [List.zip_map']
    exact hnd
  · intro i j
    rw [List.zip_map']
    constructor
    · intro hx
      obtain ⟨⟨i', j', cd⟩, hy, e⟩ := List.mem_map.1 hx
      cases e
      obtain ⟨e, c, h1, h2, h3, _⟩ := sound _ _ cd hy
      exact ⟨e, c, h1, h2, h3⟩
    · rintro ⟨e, c, h1, ec, h3⟩
      obtain ⟨h, hd, hbx⟩ := he e (List.mem_of_getElem? h1)
      obtain ⟨r, hj, _⟩ := hcs.row ec
      obtain ⟨box, res, k1, k2, k3, k4, _⟩ := face e.1 e.2 h hd hbx j r hj c ec
      obtain ⟨ok, cd⟩ := res
      have hok : ok = true := k4.2 h3
      subst hok
      refine List.mem_map.2 ⟨(i, j, cd), (hmem i j cd).2 ⟨e, h1, ?_⟩, rfl⟩
      obtain ⟨hne, u, v, u0, uv, v1, iu, iv⟩ := h3
      obtain ⟨r', hr', fc, sc, wc⟩ := hcs.row ec
      have inb : ∀ p, InPoly c p → InBox box p := fun p hp => InPoly.inBox sc.convex k2 hp
      have ma := whole_modPt h.first
      have mb := whole_modPt h.second
      refine edgeHits_complete hc.tree k1 k3 ?_ (fun nd _ => ?_) (fun nd _ => ?_)
      · obtain ⟨b1, b2, b3, b4⟩ := hc.bbox.contains _ (List.mem_of_getElem? k1)
        rw [eC] at b1 b2 b3 b4 ⊢
        have b1 : C.xmin ≤ box.xmin := (le_fin _ _).1 b1
        have b2 : box.xmax ≤ C.xmax := (le_fin _ _).1 b2
        have b3 : C.ymin ≤ box.ymin := (le_fin _ _).1 b3
        have b4 : box.ymax ≤ C.ymax := (le_fin _ _).1 b4
        have inC : ∀ p, InPoly c p → InBox C p := by
          intro p hp
          obtain ⟨d1, d2, d3, d4⟩ := inb p hp
          exact ⟨by linarith, by linarith, by linarith, by linarith⟩
        obtain ⟨r, g1, g2, _⟩ := whole_boxTest wC nC h (hbx _ (Or.inl rfl) C hBC)
        obtain ⟨x, rfl⟩ := Option.ne_none_iff_exists'.1 (g2 ⟨hne, u, v, u0, uv, v1, inC _ iu, inC _ iv⟩)
        exact ⟨_, g1⟩
      · exact (edge_goes_down_fl ma mb u0 (by linarith) (inb _ iu) nd).1
      · exact (edge_goes_down_fl ma mb u0 (by linarith) (inb _ iu) nd).2
  · intro i j cd hx
    rw [List.zip_map', List.zip_map'] at hx
    obtain ⟨⟨i', j', cd'⟩, hy, e⟩ := List.mem_map.1 hx
    cases e
    obtain ⟨e, c, h1, h2, _, p, q, p', q', h3⟩ := sound _ _ _ hy
    exact ⟨e, c, p, q, p', q', h1, h2, h3⟩

/-- **C128**: a mesh of strictly convex faces at integer coordinates of at most `2 ^ 25`, each at most `2 ^ 12` wide and high, and
edges between points with integer coordinates that are horizontal, vertical or diagonal and at most `2 ^ 24` long in each direction. In
binary64 `intersect_edges` reports an edge and a face exactly if a piece of positive length of the edge is in the face, wherever the
edge runs, also along sides and through corners of the faces. The ends of a reported piece are exact where they are ends of the edge,
and within `1 / 2 ^ 26` otherwise. -/
theorem C128_pieces_exact (hT : Tols env m f) (hm' : m ≤ 1 / 2 ^ 20) (hf : f ≤ 1 / 2 ^ 38) (hm : GoodMesh env vertices faces fill)
    (ht : Makes env vertices faces fill nBuckets cellsPerLeaf t) (hcs : WholeFaces vertices fill faces cs)
    (hsm : ∀ c ∈ cs, ∀ v ∈ c, ∀ w ∈ c, |w.x - v.x| ≤ 2 ^ 12 ∧ |w.y - v.y| ≤ 2 ^ 12) {edges : List (Pt ℚ × Pt ℚ)}
    (he : ∀ e ∈ edges, Run e.1 e.2 ∧ Compass e.1 e.2) {nThreads : Nat} (hn : 0 < nThreads) {sched : List Nat}
    (hs : sched.Perm (List.range nThreads)) :
    ∃ ii jj xy, t.intersectEdges env (edges.map fun e => (fp e.1, fp e.2)) nThreads sched = .ok (ii, jj, xy) ∧
      ii.length = jj.length ∧ jj.length = xy.length ∧ (ii.zip jj).Nodup ∧ ii.Pairwise (· ≤ ·) ∧
      (∀ i j, (i, j) ∈ ii.zip jj ↔ ∃ e c, edges[i]? = some e ∧ cs[j]? = some c ∧ SharesPiece e.1 e.2 (InPoly c)) ∧
      ∀ i j cd, (i, j, cd) ∈ ii.zip (jj.zip xy) → ∃ e c p q p' q', edges[i]? = some e ∧ cs[j]? = some c ∧ cd = (some p', some q') ∧
        ClipSpec e.1 e.2 (InPoly c) (some (p, q)) ∧ EndAcc e.1 e.2 p p' ∧ EndAcc e.1 e.2 q q' :=
  C129_pieces_exact_partial hT hm' hf hm ht hcs hsm (fun e hmem => ⟨(he e hmem).1, fun hne => Compass.steps (he e hmem).1 hne (he e hmem).2,
    fun _ _ _ _ => Or.inl (he e hmem).2⟩) hn hs

/-! ## Edges in other directions through a corner of a bounding box

A rectangle with corners at small integers and an edge between small integer points. The first end is moved to a point on the lower
side of the box, which is rounded. Then the second end misses the corner `(3, -2)` by one rounding error in `x`; correcting `x` misses it
in `y`, and so on for ever. -/

namespace WholeHang

def a : Pt Fl := fp ⟨-6, -7⟩
def b : Pt Fl := fp ⟨12, 3⟩
def box : Box Fl := fbox ⟨-5, 3, -5, -2⟩
def a1 : Pt Fl := ⟨Fl.rnd (-12 / 5), fin (-5)⟩
/-- 3.0000000000000004 -/
def b1 : Pt Fl := fp ⟨3 + 1 / 2 ^ 51, -2⟩
/-- -1.9999999999999996 -/
def b2 : Pt Fl := fp ⟨3, -2 + 2 / 2 ^ 52⟩

theorem cutA : csCut a (b.x - a.x) (b.y - a.y) box 5 = .ok a1 := by decide +kernel
theorem cutB : csCut a1 (b.x - a1.x) (b.y - a1.y) box 10 = .ok b1 := by decide +kernel
theorem cut1 : csCut a1 (b1.x - a1.x) (b1.y - a1.y) box 2 = .ok b2 := by decide +kernel
theorem cut2 : csCut a1 (b2.x - a1.x) (b2.y - a1.y) box 8 = .ok b1 := by decide +kernel
theorem clipA : getClip a box = 5 := by decide +kernel
theorem clipB : getClip b box = 10 := by decide +kernel
theorem clipA1 : getClip a1 box = 0 := by decide +kernel
theorem clip1 : getClip b1 box = 2 := by decide +kernel
theorem clip2 : getClip b2 box = 8 := by decide +kernel
theorem ne0 : ((b.x - a.x == 0) && (b.y - a.y == 0)) = false := by decide +kernel
theorem neA : ((b.x - a1.x == 0) && (b.y - a1.y == 0)) = false := by decide +kernel
theorem ne1 : ((b1.x - a1.x == 0) && (b1.y - a1.y == 0)) = false := by decide +kernel
theorem ne2 : ((b2.x - a1.x == 0) && (b2.y - a1.y == 0)) = false := by decide +kernel

theorem stepA (fuel : Nat) : csLoop box (fuel + 1) a b 5 10 (b.x - a.x) (b.y - a.y) =
    csLoop box fuel a1 b 0 10 (b.x - a1.x) (b.y - a1.y) := by
  conv_lhs => unfold csLoop
  simp [cutA, ok_bind, clipA1]
  intro h1 h2
  have := neA
  simp [h1, h2] at this

theorem stepB (fuel : Nat) : csLoop box (fuel + 1) a1 b 0 10 (b.x - a1.x) (b.y - a1.y) =
    csLoop box fuel a1 b1 0 2 (b1.x - a1.x) (b1.y - a1.y) := by
  conv_lhs => unfold csLoop
  simp [cutB, ok_bind, clip1]
  intro h1 h2
  have := ne1
  simp [h1, h2] at this

theorem step1 (fuel : Nat) : csLoop box (fuel + 1) a1 b1 0 2 (b1.x - a1.x) (b1.y - a1.y) =
    csLoop box fuel a1 b2 0 8 (b2.x - a1.x) (b2.y - a1.y) := by
  conv_lhs => unfold csLoop
  simp [cut1, ok_bind, clip2]
  intro h1 h2
  have := ne2
  simp [h1, h2] at this

theorem step2 (fuel : Nat) : csLoop box (fuel + 1) a1 b2 0 8 (b2.x - a1.x) (b2.y - a1.y) =
    csLoop box fuel a1 b1 0 2 (b1.x - a1.x) (b1.y - a1.y) := by
  conv_lhs => unfold csLoop
  simp [cut2, ok_bind, clip1]
  intro h1 h2
  have := ne1
  simp [h1, h2] at this

theorem cycle (fuel : Nat) : csLoop box fuel a1 b1 0 2 (b1.x - a1.x) (b1.y - a1.y) = .error .fuel ∧
    csLoop box fuel a1 b2 0 8 (b2.x - a1.x) (b2.y - a1.y) = .error .fuel := by
  induction fuel with
  | zero => constructor <;> (unfold csLoop; simp)
  | succ fuel ih =>
    rw [step1, step2]
    exact ⟨ih.2, ih.1⟩

/-- Corners of the rectangle. -/
def corners : List (Pt Fl) := [fp ⟨-5, -5⟩, fp ⟨3, -5⟩, fp ⟨3, -2⟩, fp ⟨-5, -2⟩]

end WholeHang

/-- **C129** (violated): for this edge and box with small integer coordinates the loop of Cohen-Sutherland does not end in binary64, whatever
the number of rounds. -/
theorem C129_clip_never_ends (fuel : Nat) : cohenSutherland (fp ⟨-6, -7⟩) (fp ⟨12, 3⟩) (fbox ⟨-5, 3, -5, -2⟩) fuel = .error .fuel := by
  change cohenSutherland WholeHang.a WholeHang.b WholeHang.box fuel = .error .fuel
  unfold cohenSutherland
  simp only [WholeHang.ne0, Bool.false_eq_true, if_false, WholeHang.clipA, WholeHang.clipB]
  match fuel with
  | 0 => unfold csLoop; simp
  | 1 => rw [WholeHang.stepA]; unfold csLoop; simp
  | fuel + 2 => rw [WholeHang.stepA, WholeHang.stepB]; exact (WholeHang.cycle fuel).1

/-- **C129** (violated): in a mesh of one rectangle with corners `(-5, -5)` and `(3, -2)`, `intersect_edges` with the edge from `(-6, -7)`
to `(12, 3)` does not end. -/
theorem C129_never_ends : ∃ t, Makes Fl.env WholeHang.corners ⟨4, [[0, 1, 2, 3]]⟩ (-1) 4 2 t ∧
    t.data.bbox = fbox ⟨-5, 3, -5, -2⟩ ∧ t.intersectEdges Fl.env [(fp ⟨-6, -7⟩, fp ⟨12, 3⟩)] 1 [0] = .error .fuel := by
  obtain ⟨t, h1, h2⟩ := bind_eq_ok.1 (show (CellTree.init Fl.env WholeHang.corners ⟨4, [[0, 1, 2, 3]]⟩ (-1) 4 2 [0] >>=
    fun t => .ok (decide (t.data.bbox = fbox ⟨-5, 3, -5, -2⟩) &&
      decide (Ex.errOf (t.intersectEdges Fl.env [(fp ⟨-6, -7⟩, fp ⟨12, 3⟩)] 1 [0]) = some .fuel))) = .ok true by decide +kernel)
  have h3 := Except.ok.inj h2
  rw [Bool.and_eq_true, decide_eq_true_eq, decide_eq_true_eq] at h3
  exact ⟨t, ⟨[0], by decide, h1⟩, h3.1, Ex.eq_error_of_errOf h3.2⟩

/-! ## A concrete case -/

theorem _root_.Celltree.Ex.whole_run {a b : Pt ℚ} (h : WholePoly [a, b]) (hx : |b.x - a.x| ≤ 2 ^ 24) (hy : |b.y - a.y| ≤ 2 ^ 24) : Run a b :=
  ⟨h.corner a (by simp), h.corner b (by simp), hx, hy⟩

/-- An edge in another direction: from `(154998, 463004)` to `(155005, 463007)`. -/
theorem _root_.Celltree.Ex.oblique_ok : ∀ e ∈ [((⟨154998, 463004⟩, ⟨155005, 463007⟩) : Pt ℚ × Pt ℚ)], Run e.1 e.2 ∧ (e.1 ≠ e.2 → Steps e.1 e.2) ∧
    ∀ l, l = [Ex.wholeCell, Ex.wholeCell'].flatten ∨ l ∈ [Ex.wholeCell, Ex.wholeCell'] → ∀ box, IsBBox l box → BoxClear box e.1 e.2 := by
  intro e he
  rw [List.mem_singleton] at he
  subst he
  refine ⟨Ex.whole_run (Ex.wholePoly_iff (by decide +kernel) (by decide +kernel)) (by decide +kernel) (by decide +kernel),
    fun _ => ⟨1, 7, 3, 7, by norm_num, by norm_num, by norm_num, by norm_num, by norm_num, by norm_num, by norm_num⟩, fun l hl box hb => Or.inr
    ⟨by decide +kernel, by decide +kernel, ?_⟩⟩
  -- no corner of a bounding box is above `463000` and below `463009`
  have hy : ∀ v ∈ l, v.y ≤ 463001 ∨ 463009 ≤ v.y := by
    have := (by decide +kernel : ∀ l ∈ [[Ex.wholeCell, Ex.wholeCell'].flatten, Ex.wholeCell, Ex.wholeCell'], ∀ v ∈ l, v.y ≤ 463001 ∨ 463009 ≤ v.y)
    refine this l ?_
    rw [List.mem_cons]
    exact hl
  have hby : (box.ymin ≤ 463001 ∨ 463009 ≤ box.ymin) ∧ (box.ymax ≤ 463001 ∨ 463009 ≤ box.ymax) := by
    obtain ⟨p3, m3, e3⟩ := hb.bottom
    obtain ⟨p4, m4, e4⟩ := hb.top
    rw [← e3, ← e4]
    exact ⟨hy _ m3, hy _ m4⟩
  intro v hv τ t0 t1 e
  have e2 := congrArg Pt.y e
  simp only [lineAt] at e2
  simp only [Celltree.Fl.corners, List.mem_cons, List.not_mem_nil, or_false] at hv
  have : v.y ≤ 463001 ∨ 463009 ≤ v.y := by
    rcases hv with rfl | rfl | rfl | rfl
    exacts [hby.1, hby.2, hby.1, hby.2]
  rcases this with g | g <;> linarith

example : ∃ t ii jj xy, Makes Fl.env Ex.wholeVerts Ex.wholeFaces (-1) 4 2 t ∧
    t.intersectEdges Fl.env [(fp ⟨154998, 463004⟩, fp ⟨155005, 463007⟩)] 1 [0] = .ok (ii, jj, xy) ∧ (0, 0) ∈ ii.zip jj ∧ (0, 1) ∈ ii.zip jj := by
  obtain ⟨t, h1, _⟩ := bind_eq_ok.1 (show (CellTree.init Fl.env Ex.wholeVerts Ex.wholeFaces (-1) 4 2 [0, 1] >>= fun t => .ok 0) =
    (.ok 0 : M Nat) by decide +kernel)
  have hmk : Makes Fl.env Ex.wholeVerts Ex.wholeFaces (-1) 4 2 t := ⟨_, by decide, h1⟩
  obtain ⟨ii, jj, xy, g1, _, _, _, _, g2, _⟩ := C129_pieces_exact_partial Ex.gable_tols (by decide +kernel) (by decide +kernel) Ex.whole_good hmk
    Ex.whole_wholeFaces (by decide +kernel) Ex.oblique_ok (nThreads := 1) (by decide) (sched := [0]) (by decide)
  exact ⟨t, ii, jj, xy, hmk, g1, (g2 0 0).2 ⟨_, _, rfl, rfl, by decide +kernel, 2 / 7, 6 / 7, by decide +kernel⟩,
    (g2 0 1).2 ⟨_, _, rfl, rfl, by decide +kernel, 20 / 21, 1, by decide +kernel⟩⟩

/-- An edge through the corner that two cells share, in compass direction east, and one that touches both cells in a corner only. -/
def _root_.Celltree.Ex.eastEdges : List (Pt ℚ × Pt ℚ) :=
  [(⟨155002, 463001⟩, ⟨155012, 463001⟩), (⟨154990, 463000⟩, ⟨155020, 463000⟩)]

theorem _root_.Celltree.Ex.east_ok : ∀ e ∈ Ex.eastEdges, Run e.1 e.2 ∧ Compass e.1 e.2 := by
  intro e he
  simp only [Ex.eastEdges, List.mem_cons, List.not_mem_nil, or_false] at he
  rcases he with rfl | rfl
  · exact ⟨Ex.whole_run (Ex.wholePoly_iff (by decide +kernel) (by decide +kernel)) (by decide +kernel) (by decide +kernel), by unfold Compass; decide +kernel⟩
  · exact ⟨Ex.whole_run (Ex.wholePoly_iff (by decide +kernel) (by decide +kernel)) (by decide +kernel) (by decide +kernel), by unfold Compass; decide +kernel⟩

/-- The edges are reported with the faces they have a piece in, and not with those that they touch. -/
example : ∃ t ii jj xy, Makes Fl.env Ex.wholeVerts Ex.wholeFaces (-1) 4 2 t ∧
    t.intersectEdges Fl.env (Ex.eastEdges.map fun e => (fp e.1, fp e.2)) 2 [1, 0] = .ok (ii, jj, xy) ∧
    (0, 0) ∈ ii.zip jj ∧ (0, 1) ∈ ii.zip jj ∧ (1, 0) ∉ ii.zip jj := by
  obtain ⟨t, h1, _⟩ := bind_eq_ok.1 (show (CellTree.init Fl.env Ex.wholeVerts Ex.wholeFaces (-1) 4 2 [0, 1] >>= fun t => .ok 0) =
    (.ok 0 : M Nat) by decide +kernel)
  have hmk : Makes Fl.env Ex.wholeVerts Ex.wholeFaces (-1) 4 2 t := ⟨_, by decide, h1⟩
  obtain ⟨ii, jj, xy, g1, _, _, _, _, g2, _⟩ := C128_pieces_exact Ex.gable_tols (by decide +kernel) (by decide +kernel) Ex.whole_good hmk
    Ex.whole_wholeFaces (by decide +kernel) Ex.east_ok (nThreads := 2) (by decide) (sched := [1, 0]) (by decide)
  refine ⟨t, ii, jj, xy, hmk, g1, (g2 0 0).2 ⟨_, _, rfl, rfl, by decide +kernel, 0, 2 / 5, by decide +kernel⟩,
    (g2 0 1).2 ⟨_, _, rfl, rfl, by decide +kernel, 2 / 5, 4 / 5, by decide +kernel⟩, fun h => ?_⟩
  obtain ⟨e, c, k1, k2, _, u, v, u0, uv, v1, iu, iv⟩ := (g2 1 0).1 h
  cases k1
  cases k2
  have key : ∀ w : ℚ, InPoly Ex.wholeCell (lineAt ⟨154990, 463000⟩ ⟨155020, 463000⟩ w) → w = 1 / 3 := by
    intro w hw
    have e1 := hw (⟨155000, 463000⟩, ⟨155006, 463001⟩) (by decide +kernel)
    have e2 := hw (⟨155000, 463010⟩, ⟨155000, 463000⟩) (by decide +kernel)
    simp only [lineAt, orient] at e1 e2
    linarith
  have := key u iu
  have := key v iv
  linarith

/-- Ends of a piece where the edge enters or leaves the face are not always exact, also if they have integer coordinates: the edge from
`(0, 1)` to `(49, 1)` enters the square at `(1, 1)`, but in binary64 `1 / 49 * 49 ≠ 1`. So the bound in C128 cannot be dropped. -/
example : cyrusBeck (fp ⟨0, 1⟩) (fp ⟨49, 1⟩) ([⟨1, 0⟩, ⟨3, 0⟩, ⟨3, 2⟩, ⟨1, 2⟩].map fp) (fin (1 / 2 ^ 40)) =
    .ok (some (fp ⟨1 - 1 / 2 ^ 53, 1⟩, fp ⟨3, 1⟩)) := by decide +kernel

end Celltree.Fl
