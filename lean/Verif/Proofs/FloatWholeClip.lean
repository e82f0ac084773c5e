import Verif.Proofs.FloatWhole
import Verif.Proofs.FloatPolyStored
import Verif.Proofs.PolyClip
import Verif.Props.AffineAreas

/-!
# Integer coordinates: clipping a polygon by one that contains it is exact in binary64
-/

set_option linter.unusedSectionVars false

namespace Celltree

section
variable {K : Type} [Field K] [LinearOrder K] [IsStrictOrderedRing K]

theorem cutPoint_start {r s a b : Pt K} (h : orient r s a = 0) : cutPoint r s a b = a := by
  unfold cutPoint lineAt
  rw [h]
  exact Pt.ext' (by simp) (by simp)

theorem cutPoint_end {r s a b : Pt K} (h : orient r s b = 0) (h' : orient r s a ≠ 0) : cutPoint r s a b = b := by
  unfold cutPoint lineAt
  rw [h, zero_sub, div_self (neg_ne_zero.2 h')]
  exact Pt.ext' (by simp) (by simp)

/-- Clipping by a line that has all corners on its left keeps corners only. -/
theorem clipGo_corner {r s : Pt K} {l : List (Pt K)} {a : Pt K} (ha : 0 ≤ orient r s a) (hl : ∀ v ∈ l, 0 ≤ orient r s v) :
    ∀ v ∈ clipGo r s a l, v = a ∨ v ∈ l := by
  induction l generalizing a with
  | nil => simp [clipGo]
  | cons b l ih =>
    have hb := hl b (by simp)
    have ih' := fun {a : Pt K} (h : 0 ≤ orient r s a) => ih h fun v hv => hl v (List.mem_cons_of_mem _ hv)
    intro v hv
    unfold clipGo at hv
    by_cases hab : a = b
    · rw [if_pos hab] at hv
      rcases ih' ha v hv with h | h
      · exact Or.inl h
      · exact Or.inr (List.mem_cons_of_mem _ h)
    rw [if_neg hab] at hv
    by_cases hb' : 0 < orient r s b
    · rw [if_pos hb'] at hv
      by_cases ha' : 0 < orient r s a
      · rw [if_pos ha', List.nil_append, List.mem_cons] at hv
        rcases hv with rfl | hv
        · simp
        · rcases ih' hb v hv with rfl | h
          · simp
          · exact Or.inr (List.mem_cons_of_mem _ h)
      · rw [if_neg ha', cutPoint_start (le_antisymm (not_lt.1 ha') ha), List.singleton_append, List.mem_cons, List.mem_cons] at hv
        rcases hv with rfl | rfl | hv
        · simp
        · simp
        · rcases ih' hb v hv with rfl | h
          · simp
          · exact Or.inr (List.mem_cons_of_mem _ h)
    · rw [if_neg hb'] at hv
      by_cases ha' : 0 < orient r s a
      · rw [if_pos ha', cutPoint_end (le_antisymm (not_lt.1 hb') hb) ha'.ne', List.mem_cons] at hv
        rcases hv with rfl | hv
        · simp
        · rcases ih' hb v hv with rfl | h
          · simp
          · exact Or.inr (List.mem_cons_of_mem _ h)
      · rw [if_neg ha'] at hv
        rcases ih' hb v hv with rfl | h
        · simp
        · exact Or.inr (List.mem_cons_of_mem _ h)

theorem clipHalf_corner {r s : Pt K} {l : List (Pt K)} (hne : l ≠ []) (hl : ∀ v ∈ l, 0 ≤ orient r s v) :
    ∀ v ∈ clipHalf r s l, v ∈ l := by
  intro v hv
  rw [clipHalf_eq hne] at hv
  rcases clipGo_corner (hl _ (List.getLast_mem hne)) hl v hv with rfl | h
  · exact List.getLast_mem hne
  · exact h

end

namespace Fl

theorem whole_vec {a b : Pt ℚ} (ha : WholePt a) (hb : WholePt b) :
    (⟨(fp b).x - (fp a).x, (fp b).y - (fp a).y⟩ : Pt Fl) = fp ⟨b.x - a.x, b.y - a.y⟩ :=
  (whole_toVector ha hb).1

theorem whole_zero_vec {a b : Pt ℚ} (ha : WholePt a) (hb : WholePt b) :
    (((fp b).x - (fp a).x == (0 : Fl)) && ((fp b).y - (fp a).y == (0 : Fl))) = decide (a = b) := by
  unfold fp
  simp only
  rw [whole_sub hb.1 ha.1 (by norm_num), whole_sub hb.2 ha.2 (by norm_num)]
  simp only [zero_def, beq_fin]
  rw [Bool.eq_iff_iff, decide_eq_true_iff, Bool.and_eq_true, decide_eq_true_iff, decide_eq_true_iff]
  constructor
  · rintro ⟨h1, h2⟩; exact Pt.ext' (by linarith) (by linarith)
  · rintro rfl; simp

theorem whole_shInside {p r s : Pt ℚ} (hp : WholePt p) (hr : WholePt r) (hs : WholePt s) :
    shInside (fp p) (fp r) (fp ⟨s.x - r.x, s.y - r.y⟩) = decide (0 < orient r s p) := by
  rw [← shInside_eq]
  unfold shInside fp
  simp only
  rw [whole_sub hp.2 hr.2 (by norm_num), whole_sub hp.1 hr.1 (by norm_num),
    whole_mul (hs.1.sub hr.1) (hp.2.sub hr.2) (by norm_num), whole_mul (hs.2.sub hr.2) (hp.1.sub hr.1) (by norm_num)]
  exact decide_eq_decide.2 (lt_fin _ _)

theorem whole_neg {n : Nat} {q : ℚ} (h : Whole n q) : Whole n (-q) := by
  obtain ⟨m, rfl, hm⟩ := h
  exact ⟨-m, by push_cast; rfl, by rwa [abs_neg]⟩

theorem whole_dot {u v : Pt ℚ} (h1 : Whole 26 u.x) (h2 : Whole 26 u.y) (h3 : Whole 26 v.x) (h4 : Whole 26 v.y) :
    dot (fp u) (fp v) = fin (dot u v) := by
  unfold dot fp
  simp only
  rw [whole_mul h1 h3 (by norm_num), whole_mul h2 h4 (by norm_num), whole_add (h1.mul h3) (h2.mul h4) (by norm_num)]

/-- The crossing with a line is exact if one of the ends is on it. -/
theorem whole_shIntersection {a b r s : Pt ℚ} (ha : WholePt a) (hb : WholePt b) (hr : WholePt r) (hs : WholePt s)
    (h : (orient r s a = 0 ∧ 0 < orient r s b) ∨ (0 < orient r s a ∧ orient r s b = 0)) :
    shIntersection (fp a) (fp ⟨b.x - a.x, b.y - a.y⟩) (fp r) (fp ⟨-(s.y - r.y), s.x - r.x⟩) =
      .ok (some (fp (cutPoint r s a b))) := by
  have n1 := whole_neg (hs.2.sub hr.2)
  have n2 := hs.1.sub hr.1
  have e1 : dot (⟨-(s.y - r.y), s.x - r.x⟩ : Pt ℚ) ⟨b.x - a.x, b.y - a.y⟩ = orient r s b - orient r s a := by
    unfold dot orient; ring
  have e2 : dot (⟨-(s.y - r.y), s.x - r.x⟩ : Pt ℚ) ⟨r.x - a.x, r.y - a.y⟩ = - orient r s a := by
    unfold dot orient; ring
  unfold shIntersection
  simp only
  rw [whole_vec ha hr, whole_dot (v := ⟨r.x - a.x, r.y - a.y⟩) n1 n2 (hr.1.sub ha.1) (hr.2.sub ha.2),
    whole_dot (v := ⟨b.x - a.x, b.y - a.y⟩) n1 n2 (hb.1.sub ha.1) (hb.2.sub ha.2), e1, e2]
  have hne : orient r s b - orient r s a ≠ 0 := by
    rcases h with ⟨h1, h2⟩ | ⟨h1, h2⟩ <;> intro h0 <;> linarith
  rw [if_pos (by rw [zero_def, beq_fin]; simpa using hne)]
  rcases h with ⟨h1, h2⟩ | ⟨h1, h2⟩
  · rw [cutPoint_start h1, h1, neg_zero, fdiv_fin (k := 0) (by rwa [h1] at hne) (by norm_num) (by simp), ok_bind, zero_div,
      rq_of_isRep isRep_zero]
    unfold fp
    simp only [fin_mul, zero_mul]
    rw [show Fl.rnd 0 = fin 0 from (show Whole 0 0 from ⟨0, by simp, by simp⟩).rnd (by norm_num), fin_add, fin_add, add_zero, add_zero,
      ha.1.rnd (by norm_num), ha.2.rnd (by norm_num)]
  · have hq : -orient r s a / (orient r s b - orient r s a) = 1 := by
      rw [h2, zero_sub]; exact div_self (neg_ne_zero.2 h1.ne')
    rw [cutPoint_end h2 h1.ne', fdiv_fin (k := 0) hne (by norm_num) (by rw [hq]; simp), ok_bind, hq,
      rq_of_isRep ((show Whole 0 1 from ⟨1, by simp, by simp⟩).isRep (by norm_num))]
    unfold fp
    simp only [fin_mul, one_mul]
    rw [(hb.1.sub ha.1).rnd (by norm_num), (hb.2.sub ha.2).rnd (by norm_num), fin_add, fin_add, add_sub_cancel, add_sub_cancel,
      hb.1.rnd (by norm_num), hb.2.rnd (by norm_num)]

theorem whole_pushPoint {out : List (Pt ℚ)} {p : Pt ℚ} (h : out.length < clipMaxNVertex) :
    pushPoint (out.map fp) (fp p) = .ok ((out ++ [p]).map fp) := by
  unfold pushPoint; rw [if_pos (by simpa using h)]; simp

/-- The inner loop is exact if no corner is on the right of the line. -/
theorem whole_clipLoop {r s : Pt ℚ} (hr : WholePt r) (hs : WholePt s) (a : Pt ℚ) (l out : List (Pt ℚ)) (ha : WholePt a ∧ 0 ≤ orient r s a)
    (hl : ∀ v ∈ l, WholePt v ∧ 0 ≤ orient r s v) (h : out.length + (clipGo r s a l).length ≤ clipMaxNVertex) :
    shClipLoop (fp r) (fp ⟨s.x - r.x, s.y - r.y⟩) (fp ⟨-(s.y - r.y), s.x - r.x⟩) (fp a) (decide (0 < orient r s a)) (l.map fp) (out.map fp) =
      .ok ((out ++ clipGo r s a l).map fp) := by
  induction l generalizing a out with
  | nil => simp [shClipLoop, clipGo]
  | cons b l ih =>
    have hb' := hl b (by simp)
    have ih' := fun a out ha => ih a out ha fun v hv => hl v (List.mem_cons_of_mem _ hv)
    rw [List.map_cons]
    unfold shClipLoop
    simp only [whole_vec ha.1 hb'.1, whole_zero_vec ha.1 hb'.1, decide_eq_true_eq, whole_shInside hb'.1 hr hs]
    by_cases hab : a = b
    · subst hab
      have e : clipGo r s a (a :: l) = clipGo r s a l := by simp [clipGo]
      rw [e] at h ⊢
      rw [if_pos rfl]
      exact ih' a out ha h
    rw [if_neg hab]
    by_cases hb : 0 < orient r s b
    · have hd := decide_eq_true hb
      rw [if_pos hb]
      by_cases ha2 : 0 < orient r s a
      · have e : clipGo r s a (b :: l) = b :: clipGo r s b l := by simp [clipGo, hab, hb, ha2]
        rw [e] at h ⊢
        rw [List.length_cons] at h
        have hp := ih' b (out ++ [b]) hb' (by rw [List.length_append, List.length_singleton]; omega)
        rw [hd] at hp
        simp only [ha2, decide_true, Bool.not_true, Bool.false_eq_true, if_false]
        change (pushPoint (out.map fp) (fp b) >>= fun out => shClipLoop _ _ _ (fp b) true (l.map fp) out) = _
        rw [whole_pushPoint (by omega), ok_bind, hp]; simp
      · have e : clipGo r s a (b :: l) = cutPoint r s a b :: b :: clipGo r s b l := by simp [clipGo, hab, hb, ha2]
        rw [e] at h ⊢
        rw [List.length_cons, List.length_cons] at h
        have hp := ih' b (out ++ [cutPoint r s a b] ++ [b]) hb' (by simp; omega)
        rw [hd] at hp
        simp only [ha2, decide_false, Bool.not_false, if_true,
          whole_shIntersection ha.1 hb'.1 hr hs (Or.inl ⟨le_antisymm (not_lt.1 ha2) ha.2, hb⟩)]
        change (pushPoint (out.map fp) (fp (cutPoint r s a b)) >>= fun out => pushPoint out (fp b) >>= fun out =>
          shClipLoop _ _ _ (fp b) true (l.map fp) out) = _
        rw [whole_pushPoint (by omega), ok_bind, whole_pushPoint (by simp; omega), ok_bind, hp]; simp
    · have hd := decide_eq_false hb
      rw [if_neg hb]
      by_cases ha2 : 0 < orient r s a
      · have e : clipGo r s a (b :: l) = cutPoint r s a b :: clipGo r s b l := by simp [clipGo, hab, hb, ha2]
        rw [e] at h ⊢
        rw [List.length_cons] at h
        have hp := ih' b (out ++ [cutPoint r s a b]) hb' (by simp; omega)
        rw [hd] at hp
        rw [if_pos ha2, whole_shIntersection ha.1 hb'.1 hr hs (Or.inr ⟨ha2, le_antisymm (not_lt.1 hb) hb'.2⟩)]
        change (pushPoint (out.map fp) (fp (cutPoint r s a b)) >>= fun out => shClipLoop _ _ _ (fp b) false (l.map fp) out) = _
        rw [whole_pushPoint (by omega), ok_bind, hp]; simp
      · have e : clipGo r s a (b :: l) = clipGo r s b l := by simp [clipGo, hab, hb, ha2]
        rw [e] at h ⊢
        have hp := ih' b out hb' h
        rw [hd] at hp
        rw [if_neg ha2]
        exact hp

theorem whole_outer_step {r s : Pt ℚ} {rest l : List (Pt ℚ)} (h : ConvexPoly l) (hl : l.length < clipMaxNVertex)
    (hrs : r ≠ s) (hr : WholePt r) (hs : WholePt s) (hw : ∀ v ∈ l, WholePt v ∧ 0 ≤ orient r s v) :
    shOuterLoop (fp r) (fp s :: rest.map fp) (l.map fp) =
      if (clipHalf r s l).length < 3 then .ok none else shOuterLoop (fp s) (rest.map fp) ((clipHalf r s l).map fp) := by
  have hne := h.ne_nil
  have hlen := clipHalf_length (r := r) (s := s) h
  rw [clipHalf_eq hne] at hlen ⊢
  conv => lhs; unfold shOuterLoop
  simp only [whole_vec hr hs, whole_zero_vec hr hs, decide_eq_true_eq]
  rw [if_neg hrs, rdI_length_sub_one (l := l.map fp) (by simpa using hne), ok_bind, List.getLast_map]
  have hlast := hw _ (List.getLast_mem hne)
  rw [whole_shInside hlast.1 hr hs, show (⟨-((fp s).y - (fp r).y), (fp s).x - (fp r).x⟩ : Pt Fl) = fp ⟨-(s.y - r.y), s.x - r.x⟩ by
    unfold fp
    simp only
    rw [whole_sub hs.1 hr.1 (by norm_num), whole_sub hs.2 hr.2 (by norm_num), neg_fin]]
  have := whole_clipLoop hr hs _ l [] hlast hw (by simp; omega)
  rw [List.map_nil, List.nil_append] at this
  rw [this, ok_bind, List.length_map]

/-- The outer loop is exact if every corner is on the left of all the lines; the result has corners of the polygon only. -/
theorem whole_outer (S : List (Pt ℚ)) (r : Pt ℚ) (l : List (Pt ℚ)) (h : ConvexPoly l)
    (hl : l.length + S.length ≤ clipMaxNVertex) (hw : ∀ v ∈ l, WholePt v) (hS : ∀ v ∈ r :: S, WholePt v)
    (hin : ∀ q ∈ pairs (r :: S), ∀ v ∈ l, 0 ≤ orient q.1 q.2 v) :
    (∃ out, shOuterLoop r S l = .ok (some out) ∧ shOuterLoop (fp r) (S.map fp) (l.map fp) = .ok (some (out.map fp)) ∧
      ConvexPoly out ∧ out.length ≤ clipMaxNVertex ∧ ∀ v ∈ out, v ∈ l) ∨
    (shOuterLoop r S l = .ok none ∧ shOuterLoop (fp r) (S.map fp) (l.map fp) = .ok none) := by
  induction S generalizing r l with
  | nil => exact Or.inl ⟨l, rfl, rfl, h, by simpa using hl, fun v hv => hv⟩
  | cons s S ih =>
    rw [List.length_cons] at hl
    have hr := hS r (by simp)
    have hs := hS s (by simp)
    rw [pairs_cons_cons] at hin
    by_cases hrs : r = s
    · subst hrs
      have e : shOuterLoop r (r :: S) l = shOuterLoop r S l := by
        conv => lhs; unfold shOuterLoop
        simp
      have e' : shOuterLoop (fp r) (fp r :: S.map fp) (l.map fp) = shOuterLoop (fp r) (S.map fp) (l.map fp) := by
        conv => lhs; unfold shOuterLoop
        simp only [whole_zero_vec hr hr]
        rw [if_pos (by simp)]
      rw [List.map_cons, e, e']
      exact ih r l h (by omega) hw (fun v hv => hS v (List.mem_cons_of_mem _ hv)) fun q hq => hin q (List.mem_cons_of_mem _ hq)
    · have hpos := hin (r, s) (by simp)
      rw [List.map_cons, shOuterLoop_step h (by omega) hrs, whole_outer_step h (by omega) hrs hr hs fun v hv => ⟨hw v hv, hpos v hv⟩]
      by_cases hx : ∃ w ∈ l, 0 < orient r s w
      · obtain ⟨w, hx, hwp⟩ := hx
        have hc := clipHalf_convex h hx hwp
        have hlen := clipHalf_length (r := r) (s := s) h
        have hm := clipHalf_corner h.ne_nil hpos
        rw [if_neg (by have := hc.length; omega), if_neg (by have := hc.length; omega)]
        rcases ih s _ hc (by omega) (fun v hv => hw v (hm v hv)) (fun v hv => hS v (List.mem_cons_of_mem _ hv))
          (fun q hq v hv => hin q (List.mem_cons_of_mem _ hq) v (hm v hv)) with ⟨out, h1, h2, h3, h4, h5⟩ | g
        · exact Or.inl ⟨out, h1, h2, h3, h4, fun v hv => hm v (h5 v hv)⟩
        · exact Or.inr g
      · push Not at hx
        rw [clipHalf_nil hx]
        exact Or.inr ⟨by simp, by simp⟩

/-! ## Areas -/

theorem whole_areaLoop {a : Pt ℚ} {l : List (Pt ℚ)} {U : Pt ℚ} {A : ℚ} {k : Nat} (ha : WholePt a)
    (hl : ∀ v ∈ l, WholePt v ∧ |a.x - v.x| ≤ 2 ^ 18 ∧ |a.y - v.y| ≤ 2 ^ 18) (hU : Whole 18 U.x ∧ Whole 18 U.y)
    (hA : Whole 50 A) (hA' : |A| ≤ k * 2 ^ 37) (hk : k + l.length ≤ 64) :
    polygonAreaLoop (fp a) (fp U) (l.map fp) (fin A) = fin (polygonAreaLoop a U l A) ∧ Whole 43 (polygonAreaLoop a U l A) := by
  induction l generalizing U A k with
  | nil =>
    refine ⟨rfl, hA.small (hA'.trans ?_)⟩
    have : (k : ℚ) ≤ 64 := by exact_mod_cast (by simpa using hk)
    nlinarith
  | cons c l ih =>
    obtain ⟨hc, c1, c2⟩ := hl c (by simp)
    obtain ⟨e, w1, w2⟩ := whole_toVector hc ha
    have v1 : Whole 18 (toVector c a).x := w1.small c1
    have v2 : Whole 18 (toVector c a).y := w2.small c2
    have up : ∀ {q : ℚ}, Whole 18 q → Whole 26 q := fun {q} h => h.small (h.abs_le.trans (by norm_num))
    obtain ⟨e2, w3⟩ := whole_cross (up hU.1) (up hU.2) (up v1) (up v2)
    have w4 : Whole 37 (cross U (toVector c a)) := (hU.1.mul v2).sub (hU.2.mul v1)
    have w5 : Whole 37 |cross U (toVector c a)| := by
      obtain ⟨m, e, hm⟩ := w4
      exact ⟨|m|, by rw [e]; push_cast; rfl, by rwa [abs_abs]⟩
    have w6 : Whole 51 (A + |cross U (toVector c a)|) := hA.add (w5.small (w5.abs_le.trans (by norm_num)))
    have hle : |A + (|cross U (toVector c a)|)| ≤ ((k + 1 : Nat) : ℚ) * 2 ^ 37 := by
      refine (abs_add_le _ _).trans ?_
      have := w5.abs_le
      push_cast
      linarith
    rw [List.length_cons] at hk
    rw [List.map_cons]
    unfold polygonAreaLoop
    simp only
    rw [e, e2, fabs_fin, fin_add, w6.rnd (by norm_num), fabs_eq]
    refine ih (fun v hv => hl v (List.mem_cons_of_mem _ hv)) ⟨v1, v2⟩ (w6.small (hle.trans ?_)) hle (by omega)
    have : ((k + 1 : Nat) : ℚ) ≤ 64 := by exact_mod_cast (by omega)
    nlinarith

theorem isRep_half {n : Nat} {q : ℚ} (h : Whole n q) (hn : n ≤ 52) : IsRep (1 / 2 * q) := by
  obtain ⟨m, rfl, hm⟩ := h
  refine ⟨m, -1, by rw [zpow_neg_one]; ring, lt_of_le_of_lt hm (pow_lt_pow_right₀ (by norm_num) (by omega)), by norm_num⟩

/-- The area of a polygon at integer coordinates is exact. -/
theorem whole_area {l : List (Pt ℚ)} (h : ConvexPoly l) (hw : WholePoly l) (hl : l.length ≤ 64) :
    polygonArea (l.map fp) = .ok (fin (shoelace l)) := by
  have hA := h.polygonArea
  have hlen := h.length
  match l, hlen with
  | a :: b :: l, _ =>
    have ha := hw.corner a (by simp)
    have hb := hw.corner b (by simp)
    obtain ⟨e, w1, w2⟩ := whole_toVector ha hb
    have hd := fun v hv => hw.small v hv a (by simp)
    have s := hw.small a (by simp) b (by simp)
    have up : ∀ {q : ℚ}, Whole 18 q → Whole 26 q := fun {q} h => h.small (h.abs_le.trans (by norm_num))
    obtain ⟨g1, g2⟩ := whole_areaLoop (a := a) (l := l) (U := toVector a b) (A := 0) (k := 0) ha
      (fun v hv => ⟨hw.corner v (by simp [hv]), (hd v (by simp [hv])).1, (hd v (by simp [hv])).2⟩)
      ⟨w1.small s.1, w2.small s.2⟩ ⟨0, by simp, by simp⟩ (by simp) (by simp at hl; omega)
    simp only [polygonArea] at hA
    rw [List.map_cons, List.map_cons]
    simp only [polygonArea]
    rw [e, zero_def, g1, half_fl, fin_mul]
    have hA := Except.ok.inj hA
    rw [half_eq] at hA
    rw [rnd_fin (le_trans ?_ (pow_le_big (k := 43) (by norm_num))), rq_of_isRep (isRep_half g2 (by norm_num)), ← hA]
    · rw [abs_mul]
      have := g2.abs_le
      norm_num at this ⊢
      linarith

/-- **The area of a polygon inside another one is exact at integer coordinates.** -/
theorem whole_clipArea {l c : List (Pt ℚ)} (h : ConvexPoly l) (hc : ConvexPoly c) (hw : WholePoly l) (hcw : ∀ v ∈ c, WholePt v)
    (hl : l.length ≤ 32) (hc' : c.length ≤ 32) (hin : ∀ v ∈ l, InPoly c v) :
    polygonPolygonClipArea (l.map fp) (c.map fp) = .ok (fin (shoelace l)) := by
  have hlen : l.length + c.length ≤ clipMaxNVertex := by unfold clipMaxNVertex maxNVertex; omega
  have hne := hc.ne_nil
  have e1 : polygonPolygonClip l c = shOuterLoop (c.getLast hne) c l := by
    unfold polygonPolygonClip
    rw [if_neg (by omega), rdI_length_sub_one hne]
    rfl
  have e2 : polygonPolygonClip (l.map fp) (c.map fp) = shOuterLoop (fp (c.getLast hne)) (c.map fp) (l.map fp) := by
    unfold polygonPolygonClip
    rw [if_neg (by rw [List.length_map]; omega), rdI_length_sub_one (l := c.map fp) (by simpa using hne), List.getLast_map]
    rfl
  unfold polygonPolygonClipArea
  rw [e2]
  rcases whole_outer c (c.getLast hne) l h hlen hw.corner (by
      intro v hv
      rcases List.mem_cons.1 hv with rfl | hv
      · exact hcw _ (List.getLast_mem hne)
      · exact hcw v hv) (fun q hq v hv => hin v hv q ((mem_sides_pairs hne).2 hq)) with ⟨out, h1, h2, h3, h4, h5⟩ | ⟨h1, h2⟩
  · rw [h2, ok_bind]
    simp only
    rw [whole_area h3 ⟨fun v hv => hw.corner v (h5 v hv), fun u hu v hv => hw.small u (h5 u hu) v (h5 v hv)⟩
      (h4.trans (by unfold clipMaxNVertex maxNVertex; norm_num))]
    have hA : polygonPolygonClipArea l c = .ok (shoelace out) := by
      unfold polygonPolygonClipArea
      rw [e1, h1, ok_bind]
      exact h3.polygonArea
    have m := clipArea_real h hc hlen hA
    have hsub : polyRegion l ⊆ polyRegion c := by
      intro p hp q hq
      refine (convex_real h).hull hp fun v hv => ?_
      obtain ⟨v, hv', rfl⟩ := List.mem_map.1 hv
      rw [sides_map] at hq
      obtain ⟨q, hq', rfl⟩ := List.mem_map.1 hq
      exact orient_real_nonneg.2 (hin v hv' q hq')
    unfold commonArea at m
    rw [Set.inter_eq_left.2 hsub] at m
    unfold polyRegion at m
    rw [(convex_real h).areaOf_region, shoelace_real] at m
    rw [show shoelace out = shoelace l by exact_mod_cast m]
  · exfalso
    rcases polygonPolygonClip_spec h hne hlen with ⟨out, k1, _⟩ | ⟨_, q, hq, hq', k⟩
    · rw [e1, h1] at k1; cases k1
    · obtain ⟨p, hp⟩ := h.exists_interior
      have hp' := InInterior.mono h hin hp
      have := k p hp.inPoly hp'.inPoly
      have := hp' q hq hq'
      linarith

end Fl
end Celltree
