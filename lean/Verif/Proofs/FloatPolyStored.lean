import Verif.Proofs.FloatPolyArea
import Verif.Proofs.FloatRectStored
import Verif.Proofs.Separating
import Verif.Spec.FloatSize
import Verif.Proofs.RealCast

/-!
# The stored order of the corners of convex polygons in binary64, and common squares
-/

set_option linter.unusedSectionVars false

namespace Celltree

theorem mem_pairs_of_split {α : Type} {l u w : List α} {s : α × α} (h : l = u ++ s.1 :: s.2 :: w) : s ∈ pairs l := by
  subst h
  induction u with
  | nil => simp
  | cons a u ih =>
    cases u with
    | nil => simp
    | cons b u => rw [List.cons_append, List.cons_append, pairs_cons_cons]; exact List.mem_cons_of_mem _ ih

section
variable {F : Type} [Add F] [Sub F] [Mul F] [Div F] [Zero F] [One F] [Neg F] [IntCast F]
  [LT F] [LE F] [BEq F] [DecidableLT F] [DecidableLE F]

theorem ccwN_start {vertices : List (Pt F)} {ncol : Nat} {A : List Int} {pre : List (Pt F)} {a b : Pt F}
    (hA : Row vertices.length ncol A) (h : ptsOf vertices A = pre ++ [a, b]) :
    ccwFace vertices (padRow ncol A) = ccwLoop vertices A.length A.length 0 a b (padRow ncol A) := by
  have h3 := hA.three
  obtain ⟨hlen, hget⟩ := ptsOf_spec hA.range
  have hl : A.length = pre.length + 2 := by rw [← hlen, h]; simp
  have key : ∀ k (hk : k < A.length) (p : Pt F), (pre ++ [a, b])[k]? = some p →
      (rdI (padRow ncol A) (k : Int) >>= fun v => rdI vertices v) = .ok p := by
    intro k hk p hp
    obtain ⟨q, g1, g2⟩ := hget k hk
    rw [h, hp] at g2
    cases g2
    rw [rdI_nat, padRow, rd_of_some (a := A[k]) (by rw [List.getElem?_append_left hk]; simp [hk]), ok_bind, g1]
  obtain ⟨v1, q1, q1'⟩ := bind_eq_ok.1 (key pre.length (by omega) a (by simp))
  obtain ⟨v2, q2, q2'⟩ := bind_eq_ok.1 (key (pre.length + 1) (by omega) b (by simp))
  unfold ccwFace
  rw [hA.polygonLength]
  simp only
  rw [show ((A.length : Int) - 2) = ((pre.length : Nat) : Int) by omega,
    show ((A.length : Int) - 1) = ((pre.length + 1 : Nat) : Int) by omega]
  rw [q1, ok_bind, q1', ok_bind, q2, ok_bind, q2', ok_bind]

theorem ccwN_keep {vertices : List (Pt F)} {ncol : Nat} {A : List Int} {mid : List (Pt F)} {p0 a b : Pt F}
    (hA : Row vertices.length ncol A) (h : ptsOf vertices A = p0 :: mid ++ [a, b])
    (h1 : (cross (toVector a b) (toVector a p0) == 0) = false) (h2 : ¬ cross (toVector a b) (toVector a p0) < 0) :
    ccwFace vertices (padRow ncol A) = .ok (padRow ncol A) := by
  have h3 := hA.three
  obtain ⟨hlen, hget⟩ := ptsOf_spec hA.range
  rw [ccwN_start hA h]
  obtain ⟨q, g1, g2⟩ := hget 0 (by omega)
  rw [h] at g2
  simp only [List.cons_append, List.getElem?_cons_zero, Option.some.injEq] at g2
  subst g2
  obtain ⟨n, hn⟩ : ∃ n, A.length = n + 1 := ⟨A.length - 1, by omega⟩
  conv => lhs; arg 3; rw [hn]
  unfold ccwLoop
  rw [padRow, rd_of_some (a := A[0]) (by rw [List.getElem?_append_left (by omega)]; simp), ok_bind, g1, ok_bind]
  simp only
  rw [if_neg (by rw [h1]; simp), if_neg h2]

theorem ccwN_flip {vertices : List (Pt F)} {ncol : Nat} {A : List Int} {pre : List (Pt F)} {p0 z a b : Pt F}
    (hA : Row vertices.length ncol A) (h : ptsOf vertices A = pre ++ [z, a, b]) (h0 : (pre ++ [z])[0]? = some p0)
    (h1 : (cross (toVector a b) (toVector a p0) == 0) = false) (h2 : cross (toVector a b) (toVector a p0) < 0)
    (h3 : (cross (toVector a b) (toVector a a) == 0) = true)
    (h4 : (cross (toVector b a) (toVector b z) == 0) = false) (h5 : ¬ cross (toVector b a) (toVector b z) < 0) :
    ccwFace vertices (padRow ncol A) = .ok (padRow ncol A.reverse) := by
  have h3' := hA.three
  obtain ⟨hlen, hget⟩ := ptsOf_spec hA.range
  obtain ⟨hlenR, hgetR⟩ := ptsOf_spec hA.reverse.range
  rw [ptsOf_reverse, h] at hgetR
  rw [ccwN_start (pre := pre ++ [z]) (a := a) (b := b) hA (by rw [h]; simp)]
  obtain ⟨q, g1, g2⟩ := hget 0 (by omega)
  have e : pre ++ [z, a, b] = (pre ++ [z]) ++ [a, b] := by simp
  rw [h, e, List.getElem?_append_left (by rw [List.length_append, List.length_singleton]; omega), h0] at g2
  cases g2
  obtain ⟨n, hn⟩ : ∃ n, A.length = n + 3 := ⟨A.length - 3, by omega⟩
  conv => lhs; arg 3; rw [hn]
  unfold ccwLoop
  rw [padRow, rd_of_some (a := A[0]) (by rw [List.getElem?_append_left (by omega)]; simp), ok_bind, g1, ok_bind]
  simp only
  rw [if_neg (by rw [h1]; simp), if_pos h2, flip_spec, ok_bind]
  have hpad : A.reverse ++ List.replicate (ncol - A.length) fillValue = padRow ncol A.reverse := by simp [padRow]
  rw [hpad]
  obtain ⟨qa, a1, a2⟩ := hgetR 1 (by simp; omega)
  obtain ⟨qz, z1, z2⟩ := hgetR 2 (by simp; omega)
  simp only [List.reverse_append, List.reverse_cons, List.reverse_nil, List.nil_append, List.cons_append,
    List.getElem?_cons_succ, List.getElem?_cons_zero, Option.some.injEq] at a2 z2
  subst a2 z2
  unfold ccwLoop
  rw [show rd (padRow ncol A.reverse) (0 + 1) = .ok (A.reverse[1]'(by simp; omega)) from
    rd_of_some (by unfold padRow; rw [List.getElem?_append_left (by simp; omega), List.getElem?_eq_getElem]), ok_bind, a1, ok_bind]
  simp only
  rw [if_pos h3]
  unfold ccwLoop
  rw [show rd (padRow ncol A.reverse) (0 + 1 + 1) = .ok (A.reverse[2]'(by simp; omega)) from
    rd_of_some (by unfold padRow; rw [List.getElem?_append_left (by simp; omega), List.getElem?_eq_getElem]), ok_bind, z1, ok_bind]
  simp only
  rw [if_neg (by rw [h4]; simp), if_neg h5]

end

namespace Fl

section
variable {M E : ℚ} (hM : 1 / 2 ^ 100 ≤ M) (hM' : M ≤ 2 ^ 198) (hE : 1 / 2 ^ 200 ≤ E)
include hM hM' hE

theorem turn_computed {a b p : Pt ℚ} (ha : |a.x| ≤ M ∧ |a.y| ≤ M) (hb : |b.x| ≤ M ∧ |b.y| ≤ M) (hp : |p.x| ≤ M ∧ |p.y| ≤ M)
    (hab : Within E b a) (hap : Within E p a) (ho : 10 * u * E ^ 2 ≤ |orient a b p|) :
    ∃ s, cross (toVector (fp a) (fp b)) (toVector (fp a) (fp p)) = fin s ∧ (s < 0 ↔ orient a b p < 0) ∧ (0 < s ↔ 0 < orient a b p) := by
  have hE0 : 0 < E := lt_of_lt_of_le (by positivity) hE
  have hu := u_pos
  have big : M ≤ 2 ^ 200 := hM'.trans (pow_le_pow_right₀ (by norm_num) (by norm_num))
  have bnd : ∀ {x : Pt ℚ}, |x.x| ≤ M ∧ |x.y| ≤ M → Bnd (2 ^ 200) x := fun h => ⟨h.1.trans big, h.2.trans big⟩
  refine ⟨_, (cross_fl (bnd ha) (bnd hb) (bnd hp)).1, ?_⟩
  have h5 : (1 : ℚ) / 2 ^ 500 ≤ E := (inv_pow_le (by norm_num)).trans hE
  have er := cross_err hab.1 hap.1 hab.2 hap.2 h5 h5
  have er' : |crossR (b.x - a.x) (b.y - a.y) (p.x - a.x) (p.y - a.y) - orient a b p| ≤ 9 * u * E ^ 2 := by
    rw [sq]; exact er
  have hpos : 0 < u * E ^ 2 := by positivity
  generalize crossR (b.x - a.x) (b.y - a.y) (p.x - a.x) (p.y - a.y) = s at *
  generalize orient a b p = O at *
  rw [abs_le] at er'
  rcases abs_cases O with ⟨e, h⟩ | ⟨e, h⟩ <;> rw [e] at ho
  · refine ⟨⟨fun _ => by nlinarith [er'.1, er'.2], fun _ => by nlinarith [er'.1, er'.2]⟩, fun _ => by nlinarith [er'.1, er'.2],
      fun _ => by nlinarith [er'.1, er'.2]⟩
  · refine ⟨⟨fun _ => by nlinarith [er'.1, er'.2], fun _ => by nlinarith [er'.1, er'.2]⟩, fun _ => by nlinarith [er'.1, er'.2],
      fun _ => by nlinarith [er'.1, er'.2]⟩

/-- The corners of a strictly convex polygon are stored counter-clockwise. -/
theorem poly_stored {vertices : List (Pt Fl)} {fill : Int} {ncol : Nat} {r : List Int} {P : List (Pt ℚ)} (hP : StrictlyConvex P)
    (hb : ∀ v ∈ P, |v.x| ≤ M ∧ |v.y| ≤ M) (hw : ∀ v ∈ P, ∀ w ∈ P, Within E v w)
    (ht : ∀ e ∈ sides P, ∀ f ∈ sides P, sideCross e f = 0 ∨ 10 * u * E ^ 2 ≤ |sideCross e f|)
    (hr : Row vertices.length ncol (rowIndices fill r))
    (h : facePts vertices fill r = P.map fp ∨ facePts vertices fill r = P.reverse.map fp) :
    storedPts vertices fill ncol r = P.map fp := by
  have big : M ≤ 2 ^ 200 := hM'.trans (pow_le_pow_right₀ (by norm_num) (by norm_num))
  have bnd : ∀ {x : Pt ℚ}, |x.x| ≤ M ∧ |x.y| ≤ M → Bnd (2 ^ 200) x := fun h => ⟨h.1.trans big, h.2.trans big⟩
  have hlen := hP.length
  rcases h with h | h
  · obtain ⟨p0, mid, a, b, rfl⟩ : ∃ p0 mid a b, P = p0 :: mid ++ [a, b] := by
      rcases P with _ | ⟨p0, P⟩
      · simp at hlen
      have hl : 2 ≤ P.length := by simpa using hlen
      refine ⟨p0, P.take (P.length - 2), P[P.length - 2], P[P.length - 1], ?_⟩
      rw [List.cons_append]
      congr 1
      conv => lhs; rw [← List.take_append_drop (P.length - 2) P]
      congr 1
      rw [List.drop_eq_getElem_cons (by omega)]
      congr 1
      have : P.length - 2 + 1 = P.length - 1 := by omega
      simp only [this]
      rw [List.drop_eq_getElem_cons (by omega), List.drop_eq_nil_of_le (by omega)]
    have ma : a ∈ p0 :: mid ++ [a, b] := by simp
    have mb : b ∈ p0 :: mid ++ [a, b] := by simp
    have mp : p0 ∈ p0 :: mid ++ [a, b] := by simp
    have s1 : (a, b) ∈ sides (p0 :: mid ++ [a, b]) := by
      unfold sides
      simp only [List.cons_append]
      exact mem_pairs_of_split (u := p0 :: mid) (w := [p0]) (by simp)
    have s2 : (b, p0) ∈ sides (p0 :: mid ++ [a, b]) := by
      unfold sides
      simp only [List.cons_append]
      exact mem_pairs_of_split (u := p0 :: mid ++ [a]) (w := []) (by simp)
    have pos : 0 < orient a b p0 := by
      rw [orient_rot]
      refine hP.turn p0 a b ?_
      rw [List.cons_append]
      exact List.Sublist.cons_cons _ (List.sublist_append_right _ _)
    have hx : sideCross (a, b) (b, p0) = orient a b p0 := by unfold sideCross orient; ring
    have h1 := (ht _ s1 _ s2).resolve_left (by rw [hx]; exact pos.ne')
    rw [hx] at h1
    obtain ⟨s, e1, _, e2⟩ := turn_computed hM hM' hE (hb a ma) (hb b mb) (hb p0 mp) (hw b mb a ma) (hw p0 mp a ma) h1
    have hs := e2.2 pos
    rw [storedPts_eq hr (ccwN_keep hr (mid := mid.map fp) (p0 := fp p0) (a := fp a) (b := fp b)
      (by rw [show ptsOf vertices (rowIndices fill r) = facePts vertices fill r from rfl, h]; simp)
      (by rw [e1, zero_def, beq_fin]; simp [hs.ne']) (by rw [e1, zero_def, lt_fin]; linarith))]
    exact h
  · obtain ⟨b, a, z, rest, rfl⟩ : ∃ b a z rest, P = b :: a :: z :: rest := by
      match P, hlen with
      | b :: a :: z :: rest, _ => exact ⟨b, a, z, rest, rfl⟩
    obtain ⟨p0, hp0⟩ : ∃ p0, ((z :: rest).reverse)[0]? = some p0 := by
      rw [List.getElem?_eq_getElem (by simp)]; exact ⟨_, rfl⟩
    have mp' : p0 ∈ z :: rest := List.mem_reverse.1 (List.mem_of_getElem? hp0)
    have mb : b ∈ b :: a :: z :: rest := by simp
    have ma : a ∈ b :: a :: z :: rest := by simp
    have mz : z ∈ b :: a :: z :: rest := by simp
    have mp : p0 ∈ b :: a :: z :: rest := by
      exact List.mem_cons_of_mem _ (List.mem_cons_of_mem _ mp')
    have s1 : (p0, b) ∈ sides (b :: a :: z :: rest) := by
      obtain ⟨m, e⟩ : ∃ m, z :: rest = m ++ [p0] := by
        refine ⟨(z :: rest).dropLast, ?_⟩
        conv => lhs; rw [← List.dropLast_append_getLast (List.cons_ne_nil z rest)]
        congr 2
        rw [List.getElem?_reverse (by simp)] at hp0
        simp only [List.length_cons, Nat.add_sub_cancel, Nat.sub_zero] at hp0
        obtain ⟨g1, g2⟩ := List.getElem?_eq_some_iff.1 hp0
        rw [← g2, List.getLast_eq_getElem]
        rfl
      rw [e]
      unfold sides
      exact mem_pairs_of_split (u := b :: a :: m) (w := []) (by simp)
    have s2 : (b, a) ∈ sides (b :: a :: z :: rest) := by simp [sides]
    have s3 : (a, z) ∈ sides (b :: a :: z :: rest) := by simp [sides]
    have pos1 : 0 < orient b a p0 := hP.turn b a p0 (by
      exact List.Sublist.cons_cons _ (List.Sublist.cons_cons _ (List.singleton_sublist.2 mp')))
    have pos2 : 0 < orient b a z := hP.turn b a z (by simp)
    have hx1 : sideCross (p0, b) (b, a) = orient b a p0 := by unfold sideCross orient; ring
    have hx2 : sideCross (b, a) (a, z) = orient b a z := by unfold sideCross orient; ring
    have h1 := (ht _ s1 _ s2).resolve_left (by rw [hx1]; exact pos1.ne')
    have h2 := (ht _ s2 _ s3).resolve_left (by rw [hx2]; exact pos2.ne')
    rw [hx1, ← abs_neg, ← orient_swap'] at h1
    rw [hx2] at h2
    obtain ⟨s, e1, e2, _⟩ := turn_computed hM hM' hE (hb a ma) (hb b mb) (hb p0 mp) (hw b mb a ma) (hw p0 mp a ma) h1
    obtain ⟨s', e3, _, e4⟩ := turn_computed hM hM' hE (hb b mb) (hb a ma) (hb z mz) (hw a ma b mb) (hw z mz b mb) h2
    have hs := e2.2 (by rw [orient_swap']; linarith)
    have hs' := e4.2 pos2
    have e : ptsOf vertices (rowIndices fill r) = (rest.reverse.map fp) ++ [fp z, fp a, fp b] := by
      rw [show ptsOf vertices (rowIndices fill r) = facePts vertices fill r from rfl, h]; simp
    rw [storedPts_eq hr.reverse (ccwN_flip hr (p0 := fp p0) e (by
        have : rest.reverse.map fp ++ [fp z] = ((z :: rest).reverse).map fp := by simp
        rw [this, List.getElem?_map, hp0]; rfl)
      (by rw [e1, zero_def, beq_fin]; simp [hs.ne]) (by rw [e1, zero_def, lt_fin]; linarith) (turn_self (bnd (hb a ma)) (bnd (hb b mb)))
      (by rw [e3, zero_def, beq_fin]; simp [hs'.ne']) (by rw [e3, zero_def, lt_fin]; linarith)), ptsOf_reverse, e]
    simp

end

/-! ## Pairs of polygons -/

section
variable {M E ρ σ : ℚ} {l c : List (Pt ℚ)} (hM : 1 / 2 ^ 100 ≤ M) (hM' : M ≤ 2 ^ 198) (hg : GenPair M E ρ σ l c)
include hM hM' hg

theorem GenPair.sigma_ge : 1 / 2 ^ 36 ≤ σ := by
  have hE := hg.E_pos hM hM'
  have hM0 := hg.M_pos hM hM'
  have h := hg.clear
  have h1 : ρ * σ * E ≤ σ * (2 * M) := by
    have : ρ * σ ≤ σ := mul_le_of_le_one_left hg.sigma.1.le hg.rho.2
    exact mul_le_mul this hg.size_le hE.le hg.sigma.1.le
  rw [div_le_iff₀ (by positivity)]
  have h2 : M / 2 ^ 35 ≤ σ * (2 * M) := h.trans h1
  rw [div_le_iff₀ (by positivity)] at h2
  have e : σ * (2 * M) * 2 ^ 35 = σ * 2 ^ 36 * M := by ring
  rw [e] at h2
  exact le_of_mul_le_mul_right (by linarith) hM0

theorem GenPair.angle' {s t : Pt ℚ × Pt ℚ} (hs : s ∈ sides l ++ sides c) (ht : t ∈ sides l ++ sides c) :
    sideCross s t = 0 ∨ 10 * u * E ^ 2 ≤ |sideCross s t| := by
  refine (hg.angle s hs t ht).imp id fun h => le_trans ?_ h
  refine mul_le_mul_of_nonneg_right (le_trans ?_ (hg.sigma_ge hM hM')) (by positivity)
  unfold u
  norm_num

theorem GenPair.stored_clipper {vertices : List (Pt Fl)} {fill : Int} {ncol : Nat} {r : List Int}
    (hr : Row vertices.length ncol (rowIndices fill r))
    (h : facePts vertices fill r = c.map fp ∨ facePts vertices fill r = c.reverse.map fp) :
    storedPts vertices fill ncol r = c.map fp :=
  poly_stored hM hM' (hg.E_tiny hM hM') hg.clipper (fun v hv => hg.bnd v (List.mem_append_right _ hv))
    (fun v hv w hw => hg.size v (List.mem_append_right _ hv) w (List.mem_append_right _ hw))
    (fun e he f hf => hg.angle' hM hM' (List.mem_append_right _ he) (List.mem_append_right _ hf)) hr h

theorem GenPair.stored_subject {vertices : List (Pt Fl)} {fill : Int} {ncol : Nat} {r : List Int}
    (hr : Row vertices.length ncol (rowIndices fill r))
    (h : facePts vertices fill r = l.map fp ∨ facePts vertices fill r = l.reverse.map fp) :
    storedPts vertices fill ncol r = l.map fp :=
  poly_stored hM hM' (hg.E_tiny hM hM') hg.subject (fun v hv => hg.bnd v (List.mem_append_left _ hv))
    (fun v hv w hw => hg.size v (List.mem_append_left _ hv) w (List.mem_append_left _ hw))
    (fun e he f hf => hg.angle' hM hM' (List.mem_append_left _ he) (List.mem_append_left _ hf)) hr h

/-- The computed area is near the exact area, and zero if that is zero. -/
theorem GenPair.area_common (hl : l.length ≤ 32) (hc : c.length ≤ 32) :
    ∃ x : ℚ, polygonPolygonClipArea (l.map fp) (c.map fp) = .ok (fin x) ∧ 0 ≤ x ∧
      |(x : ℝ) - commonArea l c| ≤ (pairAcc M E σ l c : ℚ) ∧ (commonArea l c = 0 → x = 0) ∧
      ((¬ ∃ p, InInterior l p ∧ InInterior c p) → x = 0) := by
  obtain ⟨x, A, h1, h2, h3, h4⟩ := hg.area hM hM' hl hc
  have hlen : l.length + c.length ≤ clipMaxNVertex := by unfold clipMaxNVertex maxNVertex; omega
  have eA := clipArea_real hg.subject.convex hg.clipper.convex hlen h2
  have near : |(x : ℝ) - commonArea l c| ≤ (pairAcc M E σ l c : ℚ) := by rw [← eA]; exact_mod_cast h4
  rcases clip_none_iff hg.subject.convex hg.clipper.convex hlen with ⟨out, g1, g2, g3, g4⟩ | ⟨g1, g2⟩
  · have e := Except.ok.inj (h2.symm.trans g1)
    refine ⟨x, h1, h3, near, fun h0 => ?_, fun h => absurd g4 h⟩
    have := g2.shoelace_pos
    rw [← eA] at h0
    have h0 : A = 0 := by exact_mod_cast h0
    linarith
  · have e := Except.ok.inj (h2.symm.trans g1)
    suffices x = 0 from ⟨x, h1, h3, near, fun _ => this, fun _ => this⟩
    rcases hg.clip hM hM' hl hc with ⟨_, k⟩ | ⟨T, U, _, hT, _, k, _⟩
    · unfold polygonPolygonClipArea at h1
      rw [k] at h1
      have : (Except.ok (0 : Fl) : Celltree.M Fl) = .ok (fin x) := h1
      have := Except.ok.inj this
      rw [zero_def] at this
      exact (fin.inj this).symm
    · exfalso
      rcases polygonPolygonClip_spec hg.subject.convex hg.clipper.convex.ne_nil hlen with ⟨out, q1, q2, _, q3⟩ | ⟨q1, _⟩
      · obtain ⟨p, hp⟩ := q2.exists_interior
        have hm : ∀ v ∈ out, InPoly l v ∧ InPoly c v := fun v hv => (q3 v).1 (q2.corner_inPoly hv)
        exact g2 ⟨p, InInterior.mono q2 (fun v hv => (hm v hv).1) hp, InInterior.mono q2 (fun v hv => (hm v hv).2) hp⟩
      · rw [k] at q1
        cases q1

/-! ## The separating axis test -/

theorem GenPair.side_long {P : List (Pt ℚ)} (hP : StrictlyConvex P) (hsub : ∀ s ∈ sides P, s ∈ sides l ++ sides c)
    {s : Pt ℚ × Pt ℚ} (hs : s ∈ sides P) : 1 / 2 ^ 900 ≤ |s.2.x - s.1.x| ∨ 1 / 2 ^ 900 ≤ |s.2.y - s.1.y| := by
  have hE := hg.E_pos hM hM'
  have hM0 := hg.M_pos hM hM'
  have hσ := hg.sigma.1
  by_contra hno
  push Not at hno
  have hne := hP.convex.ne_nil
  have h1 : s ∈ (start P).map TV.e := by rw [start_e]; exact mem_cyc.2 hs
  obtain ⟨v, hv, rfl⟩ := List.mem_map.1 h1
  obtain ⟨c1, c2, c3, c4, c5⟩ := start_corner hne hv
  have hx := (hg.angle _ (hsub _ c1) _ (hsub _ c2)).resolve_left (strict_turn hP c1 c2 (by rw [← c3, c5]))
  have hf := hg.side_size hM hM' (hsub _ c2)
  have m1 := mul_le_both hno.1.le hf.2 (by positivity)
  have m2 := mul_le_both hno.2.le hf.1 (by positivity)
  have hle : |sideCross v.e v.f| ≤ 1 / 2 ^ 899 * E := by
    unfold sideCross
    have e : (1 : ℚ) / 2 ^ 899 = 1 / 2 ^ 900 + 1 / 2 ^ 900 := by
      rw [show (2 : ℚ) ^ 900 = 2 ^ 899 * 2 by rw [← pow_succ]]
      generalize hX : (2 : ℚ) ^ 899 = X
      have : X ≠ 0 := by rw [← hX]; positivity
      field_simp
      norm_num
    rw [e, add_mul]
    exact (abs_sub _ _).trans (add_le_add m1 m2)
  have h2 : σ * E ≤ 1 / 2 ^ 899 := by
    have h := hx.trans hle
    have e : σ * E ^ 2 = σ * E * E := by ring
    rw [e] at h
    exact le_of_mul_le_mul_right h hE
  have h3 : M / 2 ^ 35 ≤ σ * E := by
    refine hg.clear.trans ?_
    have : ρ * σ ≤ σ := mul_le_of_le_one_left hσ.le hg.rho.2
    exact mul_le_mul_of_nonneg_right this hE.le
  have h4 : (1 : ℚ) / 2 ^ 135 ≤ M / 2 ^ 35 := by
    rw [le_div_iff₀ (by positivity)]
    refine le_trans (le_of_eq ?_) hM
    rw [show (2 : ℚ) ^ 135 = 2 ^ 100 * 2 ^ 35 by rw [← pow_add]]
    field_simp
  have h5 : (1 : ℚ) / 2 ^ 899 < 1 / 2 ^ 135 := by
    rw [div_lt_div_iff₀ (by positivity) (by positivity), one_mul, one_mul]
    exact pow_lt_pow_right₀ (by norm_num) (by norm_num)
  linarith

theorem GenPair.sat_subject : SatPoly M l :=
  ⟨hg.subject.convex, fun v hv => hg.bnd v (List.mem_append_left _ hv),
    fun _ hs _ => hg.side_long hM hM' hg.subject (fun _ h => List.mem_append_left _ h) hs⟩

theorem GenPair.sat_clipper : SatPoly M c :=
  ⟨hg.clipper.convex, fun v hv => hg.bnd v (List.mem_append_right _ hv),
    fun _ hs _ => hg.side_long hM hM' hg.clipper (fun _ h => List.mem_append_right _ h) hs⟩

omit hg hM hM' in
theorem first_three {α : Type} {T : List α} (h : 3 ≤ T.length) : ∃ v0 v1 v2 rest, T = v0 :: v1 :: v2 :: rest := by
  match T, h with
  | v0 :: v1 :: v2 :: rest, _ => exact ⟨v0, v1, v2, rest, rfl⟩

/-- If the polygons have an interior point in common, then they have a square in common. -/
theorem GenPair.square (hρ : M / 2 ^ 47 ≤ ρ ^ 2 * E) (hl : l.length ≤ 32) (hc : c.length ≤ 32)
    (hin : ∃ p, InInterior l p ∧ InInterior c p) : ∃ p, SquareIn l p (M / 2 ^ 51) ∧ SquareIn c p (M / 2 ^ 51) := by
  have hE := hg.E_pos hM hM'
  have hM0 := hg.M_pos hM hM'
  have hlen : l.length + c.length ≤ clipMaxNVertex := by unfold clipMaxNVertex maxNVertex; omega
  rcases polygonPolygonClip_spec hg.subject.convex hg.clipper.convex.ne_nil hlen with ⟨out, q1, q2, _, q3⟩ | ⟨_, q, hq, hne, q2⟩
  swap
  · obtain ⟨p, hp1, hp2⟩ := hin
    have := q2 p hp1.inPoly hp2.inPoly
    have := hp2 q hq hne
    linarith
  rcases hg.clip hM hM' hl hc with ⟨k, _⟩ | ⟨T, U, hU, hT, _, k, _⟩
  · rw [q1] at k; cases k
  rw [q1] at k
  have k := Option.some.inj (Except.ok.inj k)
  subst k
  have hω : 0 < M * E / 2 ^ 44 := by positivity
  have hδ : (c.length : ℚ) * (M * E / 2 ^ 44) ≤ M * E / 2 ^ 39 := by
    have h32 : (c.length : ℚ) ≤ 32 := by exact_mod_cast hc
    have := mul_le_mul_of_nonneg_right h32 hω.le
    have e : (32 : ℚ) * (M * E / 2 ^ 44) = M * E / 2 ^ 39 := by ring
    linarith
  have h3 := hT.convex.length
  rw [List.length_map] at h3
  obtain ⟨v0, v1, v2, rest, rfl⟩ := first_three h3
  have w0 := hT.vtx v0 (by simp)
  have w1 := hT.vtx v1 (by simp)
  have w2 := hT.vtx v2 (by simp)
  have l01 := hT.link (v0, v1) (mem_cyc.2 (by simp [sides]))
  have l12 := hT.link (v1, v2) (mem_cyc.2 (by simp [sides]))
  simp only at l01 l12
  have hf0 := hU _ w0.mem_f
  have he0 := hU _ w0.mem_e
  have hcross : ∀ {v : TV}, sideCross v.e v.f ≠ 0 → v.e ≠ v.f := by
    intro v h e
    rw [e, sideCross_self] at h
    exact h rfl
  have c1 := (hg.vtx_clear hM hM' hU hδ w1 he0 ⟨by rw [← l01.1]; exact hcross w0.crs, fun e =>
    l01.2 (meet_unique w0.crs w0.on_e w0.on_f (by rw [e]; exact w1.on_f) (by rw [l01.1]; exact w1.on_e))⟩).1
  have c2 := (hg.vtx_clear hM hM' hU hδ w2 (hU _ w1.mem_e) ⟨by rw [← l12.1]; exact hcross w1.crs, fun e =>
    l12.2 (meet_unique w1.crs w1.on_e w1.on_f (by rw [e]; exact w2.on_f) (by rw [l12.1]; exact w2.on_e))⟩).1
  rw [← l01.1] at c2
  have hne0 := hg.side_ne hM hM' hf0
  have on1 : orient v0.f.1 v0.f.2 v1.x = 0 := by rw [l01.1]; exact w1.on_e
  obtain ⟨m, e1, e2⟩ := on_line_dir hne0 w0.on_f on1
  have o1 := orient_dir (t := v0.e) e1 e2
  rw [w0.on_e, sub_zero] at o1
  have hseg := orient_seg (q := v2.x) e1 e2 w0.on_f
  have hsc : |sideCross v0.e v0.f| ≤ 2 * E ^ 2 := by
    have s1 := hg.side_size hM hM' he0
    have s2 := hg.side_size hM hM' hf0
    have m1 := mul_le_both s1.1 s2.2 hE.le
    have m2 := mul_le_both s1.2 s2.1 hE.le
    unfold sideCross
    refine (abs_sub _ _).trans ?_
    linarith [sq E]
  have hm : ρ / 2 ≤ |m| := by
    rw [o1, abs_mul] at c1
    have h1 := mul_le_mul_of_nonneg_left hsc (abs_nonneg m)
    have h2 : ρ * E ^ 2 ≤ 2 * |m| * E ^ 2 := by linarith
    have := le_of_mul_le_mul_right h2 (by positivity)
    linarith
  have hO0 : 0 ≤ orient v0.x v1.x v2.x := hT.convex.turn _ _ _ (by simp)
  have hO : ρ ^ 2 * E ^ 2 / 2 ≤ orient v0.x v1.x v2.x := by
    rw [← abs_of_nonneg hO0, hseg, abs_mul]
    have := mul_le_mul hm c2 (mul_nonneg hg.rho.1.le (by positivity)) (abs_nonneg m)
    linarith
  have hOpos : 0 < orient v0.x v1.x v2.x := lt_of_lt_of_le (by have := hg.rho.1; positivity) hO
  have hd : 2 * (E * (M / 2 ^ 51)) ≤ orient v0.x v1.x v2.x / 3 := by
    have h1 : E * (M / 2 ^ 51) ≤ E * (ρ ^ 2 * E / 16) := by
      refine mul_le_mul_of_nonneg_left ?_ hE.le
      have e : M / 2 ^ 51 = M / 2 ^ 47 / 16 := by ring
      rw [e]; linarith
    have h2 : E * (ρ ^ 2 * E / 16) = ρ ^ 2 * E ^ 2 / 16 := by ring
    have h3 : 0 ≤ ρ ^ 2 * E ^ 2 := by positivity
    linarith
  have pc : ∀ v ∈ v0 :: v1 :: v2 :: rest, InPoly l v.x ∧ InPoly c v.x := fun v hv =>
    (q3 _).1 (q2.corner_inPoly (List.mem_map_of_mem hv))
  -- the centre of the triangle
  have tri : ∀ a b d : Pt ℚ, Within E b a → orient a b d = orient v0.x v1.x v2.x → ∀ q g : Pt ℚ,
      g = ⟨(a.x + b.x + d.x) / 3, (a.y + b.y + d.y) / 3⟩ → Within (M / 2 ^ 51) q g → 0 ≤ orient a b q := by
    intro a b d hab ho q g hgc hq
    have h1 := orient_near (s := (a, b)) hab hq hE.le
    have h2 : orient a b g = orient a b d / 3 := by rw [hgc]; unfold orient; ring
    simp only at h1
    rw [h2, ho] at h1
    rw [abs_le] at h1
    linarith [h1.1]
  have sz := fun {v w : TV} (hv : Vtx l U (c.length * (M * E / 2 ^ 44)) v) (hw : Vtx l U (c.length * (M * E / 2 ^ 44)) w) => hg.point_size hM hM' hv.inl hw.inl
  have inner : ∀ q : Pt ℚ, Within (M / 2 ^ 51) q ⟨(v0.x.x + v1.x.x + v2.x.x) / 3, (v0.x.y + v1.x.y + v2.x.y) / 3⟩ →
      ∀ P : List (Pt ℚ), InPoly P v0.x → InPoly P v1.x → InPoly P v2.x → InPoly P q := by
    intro q hq P p0 p1 p2 s hs
    have t0 := tri v0.x v1.x v2.x (sz w1 w0) rfl q _ rfl hq
    have t1 := tri v1.x v2.x v0.x (sz w2 w1) (orient_rot _ _ _) q _ (by rw [Pt.mk.injEq]; constructor <;> ring) hq
    have t2 := tri v2.x v0.x v1.x (sz w0 w2) (by rw [orient_rot, orient_rot]) q _ (by rw [Pt.mk.injEq]; constructor <;> ring) hq
    have id : orient v0.x v1.x v2.x * orient s.1 s.2 q = orient v1.x v2.x q * orient s.1 s.2 v0.x +
        orient v2.x v0.x q * orient s.1 s.2 v1.x + orient v0.x v1.x q * orient s.1 s.2 v2.x := by
      unfold orient; ring
    have : 0 ≤ orient v0.x v1.x v2.x * orient s.1 s.2 q := by
      rw [id]
      exact add_nonneg (add_nonneg (mul_nonneg t1 (p0 s hs)) (mul_nonneg t2 (p1 s hs))) (mul_nonneg t0 (p2 s hs))
    exact nonneg_of_mul_nonneg_right this hOpos
  refine ⟨_, fun q hx hy => inner q ⟨hx, hy⟩ l (pc v0 (by simp)).1 (pc v1 (by simp)).1 (pc v2 (by simp)).1,
    fun q hx hy => inner q ⟨hx, hy⟩ c (pc v0 (by simp)).2 (pc v1 (by simp)).2 (pc v2 (by simp)).2⟩

end

end Fl
end Celltree
