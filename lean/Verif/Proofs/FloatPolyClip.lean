import Verif.Proofs.FloatStep
import Verif.Proofs.FloatRectArea

/-!
# Clipping a polygon by a polygon, in binary64 and in exact arithmetic
-/

set_option linter.unusedSectionVars false

namespace Celltree.Fl

/-! ## The outer loop -/

section
variable {M E ρ σ : ℚ} {l c : List (Pt ℚ)} (hM : 1 / 2 ^ 100 ≤ M) (hM' : M ≤ 2 ^ 198) (hg : GenPair M E ρ σ l c)
include hM hM' hg

theorem GenPair.round {U : List (Pt ℚ × Pt ℚ)} {δ : ℚ} (hU : ∀ s ∈ U, s ∈ sides l ++ sides c) (hδ : δ ≤ M * E / 2 ^ 39)
    {k : Pt ℚ × Pt ℚ} (hk : k ∈ sides l ++ sides c) (hkU : k ∉ U) {T : List TV} (hT : Inv l U δ T) (hlen : T.length < clipMaxNVertex)
    (rest : List (Pt ℚ)) :
    (shOuterLoop k.1 (k.2 :: rest) (T.map TV.x) =
      if (clipE (tins k) (tcut k) T).length < 3 then .ok none
      else shOuterLoop k.2 rest ((clipE (tins k) (tcut k) T).map TV.x)) ∧
    (shOuterLoop (fp k.1) ((k.2 :: rest).map fp) ((T.map TV.p).map fp) =
      if (clipE (tins k) (tcut k) T).length < 3 then .ok none
      else shOuterLoop (fp k.2) (rest.map fp) (((clipE (tins k) (tcut k) T).map TV.p).map fp)) ∧
    (clipE (tins k) (tcut k) T).length ≤ T.length + 1 := by
  have ex := hg.step_x hM hM' hU hδ hk hkU hT
  have ep := hg.step_p hM hM' hU hδ hk hkU hT
  have hne := hg.side_ne hM hM' hk
  have hl := clipHalf_length (r := k.1) (s := k.2) hT.convex
  rw [ex, List.length_map, List.length_map] at hl
  have h300 : ∀ {p : Pt ℚ}, (IsRep p.x ∧ IsRep p.y) → |p.x| ≤ 2 * M ∧ |p.y| ≤ 2 * M → Fin300 p := fun h1 h2 => by
    have h : 2 * M ≤ 2 ^ 300 := (two_M hM hM').2.trans (pow_le_pow_right₀ (by norm_num) (by norm_num))
    exact ⟨⟨h1.1, h2.1.trans h⟩, h1.2, h2.2.trans h⟩
  have hM0 := hg.M_pos hM hM'
  have hm := hg.side_mem hM hM' hk
  have up : ∀ {w}, w ∈ l ++ c → Fin300 w := fun h => by
    have := hg.bnd _ h
    exact h300 (hg.rep _ h) ⟨by linarith [this.1], by linarith [this.2]⟩
  have hT0 : T ≠ [] := by
    rintro rfl
    exact hT.convex.ne_nil rfl
  refine ⟨?_, ?_, hl⟩
  · rw [shOuterLoop_step hT.convex (by simpa using hlen) hne, ex, List.length_map]
  · have := shOuterLoop_fl (r := fp k.1) (s := fp k.2) (ins := Fl.fins k.1 k.2) (I := fcut k.1 k.2) (l := T.map TV.p)
      (rest := rest.map fp) (by simpa using hT0) rfl rfl
      (by simp only; rw [vec_zero_iff (up hm.1) (up hm.2)]; exact decide_eq_false hne)
      (by
        intro p hp
        obtain ⟨v, hv, rfl⟩ := List.mem_map.1 hp
        have h := hT.vtx v hv
        exact h300 h.rep (hg.vtx_bnd hM hM' hU hδ h).1)
      (fun p _ => rfl)
      (by
        intro e he hne'
        unfold ne at he
        rw [List.mem_filter, cyc_map] at he
        obtain ⟨q, hq, rfl⟩ := List.mem_map.1 he.1
        have hm := mem_sides_mem (mem_cyc.1 hq)
        simp only [Prod.map_fst, Prod.map_snd] at hne' ⊢
        rw [hg.fins hM hM' hU hδ hk hkU hT hm.1, hg.fins hM hM' hU hδ hk hkU hT hm.2] at hne'
        exact (hg.crossing hM hM' hU hδ hk hkU hT hq hne').2.2.1)
      (by rw [ep, List.length_map]; omega)
    rw [List.map_cons, this, ep, List.length_map]

/-- Both computations give nothing, or both give polygons with corners that correspond. -/
theorem GenPair.loop (S : List (Pt ℚ)) (r : Pt ℚ) {U : List (Pt ℚ × Pt ℚ)} {n : ℕ} {T : List TV}
    (hU : ∀ s ∈ U, s ∈ sides l ++ sides c) (hn : n + S.length ≤ 32) (hT : Inv l U (n * (M * E / 2 ^ 44)) T)
    (hS : ∀ k ∈ pairs (r :: S), k ∈ sides l ++ sides c ∧ k ∉ U) (hnd : (pairs (r :: S)).Nodup)
    (hlen : T.length + S.length ≤ clipMaxNVertex) :
    (shOuterLoop r S (T.map TV.x) = .ok none ∧ shOuterLoop (fp r) (S.map fp) ((T.map TV.p).map fp) = .ok none) ∨
    ∃ T' U', (∀ s ∈ U', s ∈ sides l ++ sides c) ∧ Inv l U' ((n + S.length : ℕ) * (M * E / 2 ^ 44)) T' ∧
      T'.length ≤ T.length + S.length ∧ shOuterLoop r S (T.map TV.x) = .ok (some (T'.map TV.x)) ∧
      shOuterLoop (fp r) (S.map fp) ((T.map TV.p).map fp) = .ok (some ((T'.map TV.p).map fp)) := by
  induction S generalizing r U n T with
  | nil => exact Or.inr ⟨T, U, hU, by simpa using hT, by simp, rfl, rfl⟩
  | cons s S ih =>
    have hE := hg.E_pos hM hM'
    have hM0 := hg.M_pos hM hM'
    rw [List.length_cons] at hn hlen
    rw [pairs_cons_cons] at hS hnd
    have hk := hS (r, s) (by simp)
    have hω : 0 < M * E / 2 ^ 44 := by positivity
    have hδ : (n : ℚ) * (M * E / 2 ^ 44) ≤ M * E / 2 ^ 39 := by
      have h32 : (n : ℚ) ≤ 32 := by
        have : n ≤ 32 := by omega
        exact_mod_cast this
      have := mul_le_mul_of_nonneg_right h32 hω.le
      have e : (32 : ℚ) * (M * E / 2 ^ 44) = M * E / 2 ^ 39 := by ring
      linarith
    obtain ⟨e1, e2, e3⟩ := hg.round hM hM' hU hδ hk.1 hk.2 hT (by omega) S
    simp only at e1 e2
    rw [e1, e2]
    by_cases hw : ∃ w ∈ T, tins (r, s) w = true
    · obtain ⟨w, hw, hin⟩ := hw
      have hI := hg.step_inv hM hM' hU hδ hk.1 hk.2 hT hw hin
      have h3 := hI.convex.length
      rw [List.length_map] at h3
      rw [if_neg (by omega), if_neg (by omega)]
      have hI' : Inv l ((r, s) :: U) (((n + 1 : ℕ) : ℚ) * (M * E / 2 ^ 44)) (clipE (tins (r, s)) (tcut (r, s)) T) := by
        have e : (((n + 1 : ℕ) : ℚ) * (M * E / 2 ^ 44)) = n * (M * E / 2 ^ 44) + M * E / 2 ^ 44 := by push_cast; ring
        rw [e]; exact hI
      rw [List.nodup_cons] at hnd
      rcases ih s (U := (r, s) :: U) (n := n + 1) (fun x hx => by
          rcases List.mem_cons.1 hx with rfl | hx
          · exact hk.1
          · exact hU x hx) (by omega) hI' (fun k' hk' => by
          have := hS k' (List.mem_cons_of_mem _ hk')
          refine ⟨this.1, fun h => ?_⟩
          rcases List.mem_cons.1 h with rfl | h
          · exact hnd.1 hk'
          · exact this.2 h) hnd.2 (by omega) with h | ⟨T', U', h1, h2, h3, h4, h5⟩
      · exact Or.inl h
      · refine Or.inr ⟨T', U', h1, ?_, by rw [List.length_cons]; omega, h4, h5⟩
        have e : n + (s :: S).length = n + 1 + S.length := by rw [List.length_cons]; omega
        rw [e]; exact h2
    · push Not at hw
      have h0 : clipE (tins (r, s)) (tcut (r, s)) T = [] := by
        rw [List.eq_nil_iff_forall_not_mem]
        intro v hv
        rcases clipE_mem hv with ⟨h1, h2⟩ | ⟨q, hq, h1, _⟩
        · exact hw v h1 h2
        · have hm := mem_sides_mem (mem_cyc.1 hq)
          have a := hw _ hm.1
          have b := hw _ hm.2
          exact h1 (by rw [Bool.eq_false_iff.2 a, Bool.eq_false_iff.2 b])
      rw [h0]
      exact Or.inl ⟨rfl, rfl⟩

end

/-! ## The polygon before clipping -/

/-- The corners with the sides they are on. -/
def start (l : List (Pt ℚ)) : List TV := ((cyc l).zip ((cyc l).rotate 1)).map fun q => ⟨q.1.2, q.1.2, q.1, q.2⟩

theorem start_e (l : List (Pt ℚ)) : (start l).map TV.e = cyc l := by
  unfold start
  rw [List.map_map]
  exact List.map_fst_zip (by simp)

theorem start_f (l : List (Pt ℚ)) : (start l).map TV.f = (cyc l).rotate 1 := by
  unfold start
  rw [List.map_map]
  exact List.map_snd_zip (by simp)

theorem cyc_fst {α : Type} (l : List α) : (cyc l).map Prod.fst = l.rotate (l.length - 1) := by
  unfold cyc
  exact List.map_fst_zip (by simp)

theorem cyc_snd {α : Type} (l : List α) : (cyc l).map Prod.snd = l := by
  unfold cyc
  exact List.map_snd_zip (by simp)

theorem start_x (l : List (Pt ℚ)) : (start l).map TV.x = l := by
  have : (start l).map TV.x = ((start l).map TV.e).map Prod.snd := by
    unfold start
    rw [List.map_map, List.map_map, List.map_map]
    rfl
  rw [this, start_e, cyc_snd]

theorem start_p (l : List (Pt ℚ)) : (start l).map TV.p = l := by
  have : (start l).map TV.p = (start l).map TV.x := by
    unfold start
    rw [List.map_map, List.map_map]
    rfl
  rw [this, start_x]

theorem start_length (l : List (Pt ℚ)) : (start l).length = l.length := by
  conv => rhs; rw [← start_x l, List.length_map]

theorem rotate_back {α : Type} {l : List α} (h : l ≠ []) : (l.rotate (l.length - 1)).rotate 1 = l := by
  have := List.length_pos_iff.2 h
  rw [List.rotate_rotate, Nat.sub_add_cancel (by omega), List.rotate_length]

theorem start_corner {l : List (Pt ℚ)} (h : l ≠ []) {v : TV} (hv : v ∈ start l) :
    v.e ∈ sides l ∧ v.f ∈ sides l ∧ v.x = v.e.2 ∧ v.p = v.x ∧ v.f.1 = v.x := by
  have h1 : (start l).map (fun v => v.f.1) = (start l).map TV.x := by
    have : (start l).map (fun v => v.f.1) = ((start l).map TV.f).map Prod.fst := by rw [List.map_map]; rfl
    rw [this, start_f, List.map_rotate, cyc_fst, start_x, rotate_back h]
  have h2 := List.map_inj_left.1 h1 v hv
  have he : v.e ∈ (start l).map TV.e := List.mem_map_of_mem hv
  have hf : v.f ∈ (start l).map TV.f := List.mem_map_of_mem hv
  rw [start_e] at he
  rw [start_f, List.mem_rotate] at hf
  refine ⟨mem_cyc.1 he, mem_cyc.1 hf, ?_, ?_, h2⟩
  · unfold start at hv
    obtain ⟨q, _, rfl⟩ := List.mem_map.1 hv
    rfl
  · unfold start at hv
    obtain ⟨q, _, rfl⟩ := List.mem_map.1 hv
    rfl

theorem start_link {l : List (Pt ℚ)} (h : l ≠ []) {q : TV × TV} (hq : q ∈ cyc (start l)) : q.1.f = q.2.e := by
  have h1 : (cyc (start l)).map (fun q => q.1.f) = (cyc (start l)).map fun q => q.2.e := by
    have e1 : (cyc (start l)).map (fun q => q.1.f) = ((cyc (start l)).map Prod.fst).map TV.f := by rw [List.map_map]; rfl
    have e2 : (cyc (start l)).map (fun q => q.2.e) = ((cyc (start l)).map Prod.snd).map TV.e := by rw [List.map_map]; rfl
    rw [e1, e2, cyc_fst, cyc_snd, List.map_rotate, start_f, start_e, start_length, List.rotate_rotate]
    have := List.length_pos_iff.2 h
    have e3 : 1 + (l.length - 1) = (cyc l).length := by rw [cyc_length]; omega
    rw [e3, List.rotate_length]
  exact List.map_inj_left.1 h1 q hq

/-- A strictly convex polygon does not turn back. -/
theorem strict_turn {l : List (Pt ℚ)} (h : StrictlyConvex l) {e f : Pt ℚ × Pt ℚ} (he : e ∈ sides l) (hf : f ∈ sides l)
    (hef : e.2 = f.1) : sideCross e f ≠ 0 := by
  intro h0
  have hl := h.length
  have h1 : orient e.1 e.2 f.2 = 0 := by
    rw [← h0]
    unfold orient sideCross
    rw [← hef]
    ring
  have hm := mem_sides_mem hf
  have hfn := (h.two_on_line hf).1
  rcases (h.two_on_line he).2 _ hm.2 h1 with h2 | h2
  · rcases side_rotation he with ⟨rest, hr⟩ | ⟨hh, _⟩
    · have hs := h.rotated hr.symm
      have hl' := hs.length
      rcases rest with _ | ⟨w, rest⟩
      · simp at hl'
      have h3 := hs.turn e.1 e.2 w (by simp)
      have h4 := h.convex.support hf (hr.mem_iff.1 (show w ∈ e.1 :: e.2 :: w :: rest by simp))
      rw [← hef, h2, orient_swap'] at h4
      linarith
    · rw [hh] at hl; simp at hl
  · rw [h2, hef] at hfn; exact hfn rfl

theorem strict_nodup {l : List (Pt ℚ)} (h : StrictlyConvex l) : l.Nodup := by
  rw [List.nodup_iff_sublist]
  intro a hs
  obtain ⟨s1, s2, rfl, h1, h2⟩ : ∃ s1 s2, l = s1 ++ s2 ∧ a ∈ s1 ∧ a ∈ s2 := by
    have := (List.append_sublist_iff (l₁ := [a]) (l₂ := [a])).1 hs
    obtain ⟨r1, r2, e, h1, h2⟩ := this
    exact ⟨r1, r2, e, List.singleton_sublist.1 h1, List.singleton_sublist.1 h2⟩
  have hl := h.length
  obtain ⟨u1, w1, rfl⟩ := List.append_of_mem h1
  obtain ⟨u2, w2, rfl⟩ := List.append_of_mem h2
  -- a third corner is somewhere
  have : u1 ≠ [] ∨ (w1 ++ u2) ≠ [] ∨ w2 ≠ [] := by
    by_contra hno
    push Not at hno
    obtain ⟨n1, n2, n3⟩ := hno
    obtain ⟨n4, n5⟩ := List.append_eq_nil_iff.1 n2
    subst n1 n3 n4 n5
    simp at hl
  have hw : u1 ++ a :: w1 ++ (u2 ++ a :: w2) = u1 ++ (a :: ((w1 ++ u2) ++ (a :: w2))) := by simp
  rw [hw] at h
  rcases this with hh | hh | hh
  · obtain ⟨z, zs, rfl⟩ := List.exists_cons_of_ne_nil hh
    have := h.turn z a a (by
      rw [List.cons_append]
      refine List.Sublist.cons_cons _ ?_
      refine List.Sublist.trans ?_ (List.sublist_append_right _ _)
      refine List.Sublist.cons_cons _ ?_
      exact List.Sublist.trans (by simp) (List.sublist_append_right _ _))
    rw [orient_self_right] at this
    exact lt_irrefl _ this
  · obtain ⟨z, zs, e⟩ := List.exists_cons_of_ne_nil hh
    rw [e] at h
    have := h.turn a z a (by
      refine List.Sublist.trans ?_ (List.sublist_append_right _ _)
      refine List.Sublist.cons_cons _ ?_
      rw [List.cons_append]
      refine List.Sublist.cons_cons _ ?_
      exact List.Sublist.trans (by simp) (List.sublist_append_right _ _))
    rw [orient_self_left] at this
    exact lt_irrefl _ this
  · obtain ⟨z, zs, rfl⟩ := List.exists_cons_of_ne_nil hh
    have := h.turn a a z (by
      refine List.Sublist.trans ?_ (List.sublist_append_right _ _)
      refine List.Sublist.cons_cons _ ?_
      exact List.Sublist.trans (by simp) (List.sublist_append_right _ _))
    rw [orient_same] at this
    exact lt_irrefl _ this

theorem pairs_nodup {α : Type} (r : α) {S : List α} (h : S.Nodup) : (pairs (r :: S)).Nodup := by
  have e : (pairs (r :: S)).map Prod.snd = S := by
    rw [← zip_eq_pairs]
    exact List.map_snd_zip (by simp)
  exact List.Nodup.of_map Prod.snd (by rw [e]; exact h)

theorem start_inv {l : List (Pt ℚ)} (h : StrictlyConvex l) (hr : ∀ v ∈ l, IsRep v.x ∧ IsRep v.y) : Inv l (sides l) 0 (start l) := by
  have hne := h.convex.ne_nil
  refine ⟨fun v hv => ?_, fun q hq => ?_, by rw [start_x]; exact h.convex⟩
  · obtain ⟨c1, c2, c3, c4, c5⟩ := start_corner hne hv
    have hx : v.x ∈ l := by
      have : v.x ∈ (start l).map TV.x := List.mem_map_of_mem hv
      rwa [start_x] at this
    have o1 : orient v.e.1 v.e.2 v.x = 0 := by rw [c3]; exact orient_self_right _ _
    have o2 : orient v.f.1 v.f.2 v.x = 0 := by rw [← c5]; exact orient_self_left _ _
    exact ⟨c1, c2, strict_turn h c1 c2 (by rw [← c3, c5]), o1, o2, h.convex.corner_inPoly hx, by rw [c4]; exact hr _ hx,
      by rw [c4, o1, abs_zero], by rw [c4, o2, abs_zero]⟩
  · have hl := start_link hne hq
    have hm := mem_sides_mem (mem_cyc.1 hq)
    refine ⟨hl, ?_⟩
    obtain ⟨_, c2, _, _, c5⟩ := start_corner hne hm.1
    obtain ⟨_, _, d3, _, _⟩ := start_corner hne hm.2
    rw [← c5, d3, ← hl]
    exact (h.two_on_line c2).1

/-! ## Clipping -/

section
variable {M E ρ σ : ℚ} {l c : List (Pt ℚ)} (hM : 1 / 2 ^ 100 ≤ M) (hM' : M ≤ 2 ^ 198) (hg : GenPair M E ρ σ l c)
include hM hM' hg

/-- The computed clipped polygon follows the exact one. -/
theorem GenPair.clip (hl : l.length ≤ 32) (hc : c.length ≤ 32) :
    (polygonPolygonClip l c = .ok none ∧ polygonPolygonClip (l.map fp) (c.map fp) = .ok none) ∨
    ∃ T U, (∀ s ∈ U, s ∈ sides l ++ sides c) ∧ Inv l U (c.length * (M * E / 2 ^ 44)) T ∧ T.length ≤ l.length + c.length ∧
      polygonPolygonClip l c = .ok (some (T.map TV.x)) ∧
      polygonPolygonClip (l.map fp) (c.map fp) = .ok (some ((T.map TV.p).map fp)) := by
  have hne : c ≠ [] := hg.clipper.convex.ne_nil
  have e1 : polygonPolygonClip l c = shOuterLoop (c.getLast hne) c l := by
    unfold polygonPolygonClip
    rw [if_neg (by unfold clipMaxNVertex maxNVertex; omega), rdI_length_sub_one hne]
    rfl
  have e2 : polygonPolygonClip (l.map fp) (c.map fp) = shOuterLoop (fp (c.getLast hne)) (c.map fp) (l.map fp) := by
    unfold polygonPolygonClip
    rw [if_neg (by rw [List.length_map]; unfold clipMaxNVertex maxNVertex; omega), rdI_length_sub_one (by simpa using hne), List.getLast_map]
    rfl
  have hT := start_inv hg.subject fun v hv => hg.rep v (List.mem_append_left _ hv)
  have := hg.loop hM hM' c (c.getLast hne) (U := sides l) (n := 0) (T := start l)
    (fun s hs => List.mem_append_left _ hs) (by omega) (by simpa using hT)
    (fun k hk => by
      have := (mem_sides_pairs hne).2 hk
      exact ⟨List.mem_append_right _ this, fun h => hg.other k h this⟩)
    (pairs_nodup _ (strict_nodup hg.clipper)) (by rw [start_length]; unfold clipMaxNVertex maxNVertex; omega)
  rw [start_x, start_p, start_length, Nat.zero_add] at this
  rw [e1, e2]
  exact this

end

end Celltree.Fl
