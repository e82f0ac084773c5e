import Verif.Model.Algorithms
import Verif.Proofs.Core
import Verif.Proofs.FloatPiece
import Mathlib.Data.List.Rotate

/-!
# Clipping in binary64 as an operation on the edges of a polygon
-/

set_option linter.unusedSectionVars false

namespace Celltree.Fl

section
variable {α β : Type} [DecidableEq α]

/-- The edges of a closed polygon, starting with the edge from the last to the first vertex. -/
def cyc (l : List α) : List (α × α) := (l.rotate (l.length - 1)).zip l

theorem cyc_rotate (l : List α) (n : ℕ) : cyc (l.rotate n) = (cyc l).rotate n := by
  unfold cyc
  rw [List.length_rotate, List.rotate_rotate, Nat.add_comm, ← List.rotate_rotate]
  exact (List.zipWith_rotate_distrib _ _ _ _ (by rw [List.length_rotate])).symm

theorem cyc_rotated {l l' : List α} (h : l ~r l') : cyc l ~r cyc l' := by
  obtain ⟨n, rfl⟩ := h
  exact ⟨n, (cyc_rotate l n).symm⟩

theorem cyc_length (l : List α) : (cyc l).length = l.length := by
  unfold cyc; simp

/-- The edges between different points. -/
def ne (E : List (α × α)) : List (α × α) := E.filter fun e => !decide (e.1 = e.2)

theorem filter_rotated {γ : Type} {l l' : List γ} (h : l ~r l') (p : γ → Bool) : l.filter p ~r l'.filter p := by
  obtain ⟨n, rfl⟩ := h
  rw [List.rotate_eq_drop_append_take_mod]
  conv => lhs; rw [← List.take_append_drop (n % l.length) l]
  rw [List.filter_append, List.filter_append]
  exact List.isRotated_append

theorem flatMap_rotated {γ ε : Type} {l l' : List γ} (h : l ~r l') (f : γ → List ε) : l.flatMap f ~r l'.flatMap f := by
  obtain ⟨n, rfl⟩ := h
  rw [List.rotate_eq_drop_append_take_mod]
  conv => lhs; rw [← List.take_append_drop (n % l.length) l]
  rw [List.flatMap_append, List.flatMap_append]
  exact List.isRotated_append

/-- What one edge contributes to the clipped polygon. -/
def emit (ins : α → Bool) (I : α → α → α) (e : α × α) : List α :=
  if e.1 = e.2 then [] else if ins e.2 then (if ins e.1 then [e.2] else [I e.1 e.2, e.2])
    else if ins e.1 then [I e.1 e.2] else []

/-- The clipped polygon. -/
def clipE (ins : α → Bool) (I : α → α → α) (l : List α) : List α := (cyc l).flatMap (emit ins I)

theorem flatMap_ne (ins : α → Bool) (I : α → α → α) (E : List (α × α)) :
    (ne E).flatMap (emit ins I) = E.flatMap (emit ins I) := by
  induction E with
  | nil => rfl
  | cons e E ih =>
    unfold ne at ih ⊢
    by_cases h : e.1 = e.2
    · rw [List.filter_cons_of_neg (by simp [h]), ih, List.flatMap_cons]
      simp [emit, h]
    · rw [List.filter_cons_of_pos (by simp [h]), List.flatMap_cons, List.flatMap_cons, ih]

/-- The polygon `l` has the edges of `q`, except that points that coincide may have been left out. -/
structure Same (l q : List α) : Prop where
  edges : ne (cyc l) ~r ne (cyc q)
  mem : ∀ p ∈ l, p ∈ q
  len : l.length ≤ 4

theorem Same.rotated {l q q' : List α} (h : Same l q) (hr : q ~r q') : Same l q' :=
  ⟨h.edges.trans (filter_rotated (cyc_rotated hr) _), fun p hp => hr.mem_iff.1 (h.mem p hp), h.len⟩

theorem Same.of_rotated {l q : List α} (h : l ~r q) (hl : q.length ≤ 4) : Same l q :=
  ⟨filter_rotated (cyc_rotated h) _, fun _ hp => h.mem_iff.1 hp, h.perm.length_eq ▸ hl⟩

theorem Same.clip {l q : List α} (h : Same l q) (ins : α → Bool) (I : α → α → α) :
    clipE ins I l ~r clipE ins I q := by
  unfold clipE
  rw [← flatMap_ne ins I (cyc l), ← flatMap_ne ins I (cyc q)]
  exact flatMap_rotated h.edges _

/-- Four corners of which two are inside. -/
theorem Same.cut {l : List α} {q0 q1 q2 q3 : α} (h : Same l [q0, q1, q2, q3]) {ins : α → Bool} (I : α → α → α)
    (h0 : ins q0 = false) (h1 : ins q1 = true) (h2 : ins q2 = true) (h3 : ins q3 = false) :
    Same (clipE ins I l) [I q0 q1, q1, q2, I q2 q3] := by
  have n01 : q0 ≠ q1 := fun e => by rw [e, h1] at h0; cases h0
  have n23 : q2 ≠ q3 := fun e => by rw [e, h3] at h2; cases h2
  have e : clipE ins I [q0, q1, q2, q3] = I q0 q1 :: q1 :: ((if q1 = q2 then [] else [q2]) ++ [I q2 q3]) := by
    unfold clipE cyc emit
    by_cases h12 : q1 = q2
    · subst h12
      by_cases h30 : q3 = q0 <;> simp [h30, h0, h1, h3, n01, n23]
      all_goals simp_all
    · by_cases h30 : q3 = q0 <;> simp [h30, h0, h1, h2, h3, n01, n23, h12]
      all_goals simp_all
  have hr := h.clip ins I
  have hn : ne (cyc (clipE ins I [q0, q1, q2, q3])) = ne (cyc [I q0 q1, q1, q2, I q2 q3]) := by
    rw [e]
    by_cases h12 : q1 = q2
    · subst h12
      simp [cyc, ne, List.filter_cons]
    · simp [h12]
  refine ⟨(filter_rotated (cyc_rotated hr) _).trans (by rw [← ne, hn]), ?_, ?_⟩
  · intro p hp
    have := hr.mem_iff.1 hp
    rw [e] at this
    by_cases h12 : q1 = q2
    · subst h12; simpa using this
    · simpa [h12] using this
  · rw [hr.perm.length_eq, e]
    split <;> simp

/-- Four corners that are all inside. -/
theorem Same.keep {l : List α} {q0 q1 q2 q3 : α} (h : Same l [q0, q1, q2, q3]) {ins : α → Bool} (I : α → α → α)
    (h0 : ins q0 = true) (h1 : ins q1 = true) (h2 : ins q2 = true) (h3 : ins q3 = true) :
    Same (clipE ins I l) [q0, q1, q2, q3] := by
  have hr := h.clip ins I
  have e : clipE ins I [q0, q1, q2, q3] = (if q3 = q0 then [] else [q0]) ++ (if q0 = q1 then [] else [q1]) ++
      (if q1 = q2 then [] else [q2]) ++ (if q2 = q3 then [] else [q3]) := by
    unfold clipE cyc emit
    simp [h0, h1, h2, h3]
  have hn : ne (cyc (clipE ins I [q0, q1, q2, q3])) = ne (cyc [q0, q1, q2, q3]) := by
    rw [e]
    by_cases a : q3 = q0 <;> by_cases b : q0 = q1 <;> by_cases c : q1 = q2 <;> by_cases d : q2 = q3 <;>
      (try subst a) <;> (try subst b) <;> (try subst c) <;> (try subst d) <;>
      simp [cyc, ne, List.filter_cons, *]
  refine ⟨(filter_rotated (cyc_rotated hr) _).trans (by rw [← ne, hn]), ?_, ?_⟩
  · intro p hp
    have := hr.mem_iff.1 hp
    rw [e] at this
    simp only [List.mem_append] at this
    simp only [List.mem_cons, List.not_mem_nil, or_false]
    rcases this with ((h | h) | h) | h <;> split at h <;> simp_all
  · rw [hr.perm.length_eq, e]
    split <;> split <;> split <;> split <;> simp

/-- Four corners that are all outside. -/
theorem Same.drop {l : List α} {q0 q1 q2 q3 : α} (h : Same l [q0, q1, q2, q3]) {ins : α → Bool} (I : α → α → α)
    (h0 : ins q0 = false) (h1 : ins q1 = false) (h2 : ins q2 = false) (h3 : ins q3 = false) :
    clipE ins I l = [] := by
  have hr := h.clip ins I
  have e : clipE ins I [q0, q1, q2, q3] = [] := by
    unfold clipE cyc emit
    simp [h0, h1, h2, h3]
  rw [e] at hr
  exact List.isRotated_nil_iff.1 hr

/-- If consecutive corners are different, nothing has been left out. -/
theorem Same.all {l : List α} {q0 q1 q2 q3 : α} (h : Same l [q0, q1, q2, q3]) (h01 : q0 ≠ q1) (h12 : q1 ≠ q2) (h23 : q2 ≠ q3)
    (h30 : q3 ≠ q0) : l ~r [q0, q1, q2, q3] := by
  have e : ne (cyc [q0, q1, q2, q3]) = cyc [q0, q1, q2, q3] := by simp [ne, cyc, h01, h12, h23, h30]
  have h1 := h.edges
  rw [e] at h1
  have hl : (ne (cyc l)).length = 4 := by rw [h1.perm.length_eq, cyc_length]; rfl
  have hs : (ne (cyc l)).Sublist (cyc l) := List.filter_sublist
  have h2 : ne (cyc l) = cyc l := hs.eq_of_length_le (by rw [hl, cyc_length]; exact h.len)
  rw [h2] at h1
  have h3 := h1.map Prod.snd
  have k : ∀ m : List α, (cyc m).map Prod.snd = m := fun m => by
    unfold cyc; rw [List.map_snd_zip (by rw [List.length_rotate])]
  rwa [k, k] at h3

end

/-! ## The loops -/

theorem fp_inj {p q : Pt ℚ} (h : fp p = fp q) : p = q := by
  unfold fp at h
  injection h with h1 h2
  injection h1 with h1
  injection h2 with h2
  exact Pt.ext' h1 h2

/-- A point with coordinates that exist in binary64, of at most `2 ^ 300`. -/
def Fin300 (p : Pt ℚ) : Prop := (IsRep p.x ∧ |p.x| ≤ 2 ^ 300) ∧ IsRep p.y ∧ |p.y| ≤ 2 ^ 300

theorem sub_zero_iff {x y : ℚ} (hx : IsRep x ∧ |x| ≤ 2 ^ 300) (hy : IsRep y ∧ |y| ≤ 2 ^ 300) :
    (fin y - fin x == (0 : Fl)) = decide (x = y) := by
  have hb : ∀ z : ℚ, |z| ≤ 2 ^ 300 → |z| ≤ maxNat := fun z h => h.trans (pow_le_big (by norm_num))
  rw [sub_fin (k := 301) (by norm_num) (abs_sub_le_pow hy.2 hx.2), zero_def, beq_fin, decide_eq_decide]
  constructor
  · intro h
    by_contra hne
    have hs := subNonzero (ys := [fin x, fin y]) (by
      intro z hz
      simp only [List.mem_cons, List.not_mem_nil, or_false] at hz
      rcases hz with rfl | rfl
      · exact ⟨hx.1, hb _ hx.2⟩
      · exact ⟨hy.1, hb _ hy.2⟩)
    rcases lt_or_gt_of_ne hne with h' | h'
    · have := hs (fin x) (by simp) (fin y) (by simp) ((lt_fin _ _).2 h')
      rw [sub_fin (k := 301) (by norm_num) (abs_sub_le_pow hy.2 hx.2), sub_fin (k := 301) (by norm_num) (abs_sub_le_pow hx.2 hy.2),
        zero_def, beq_fin, beq_fin, h] at this
      simp at this
    · have := hs (fin y) (by simp) (fin x) (by simp) ((lt_fin _ _).2 h')
      rw [sub_fin (k := 301) (by norm_num) (abs_sub_le_pow hy.2 hx.2), sub_fin (k := 301) (by norm_num) (abs_sub_le_pow hx.2 hy.2),
        zero_def, beq_fin, beq_fin, h] at this
      simp at this
  · rintro rfl; rw [sub_self, rq_zero]

theorem vec_zero_iff {p q : Pt ℚ} (hp : Fin300 p) (hq : Fin300 q) :
    ((fp q).x - (fp p).x == 0 && (fp q).y - (fp p).y == 0) = decide (p = q) := by
  unfold fp
  rw [sub_zero_iff hp.1 hq.1, sub_zero_iff hp.2 hq.2, ← Bool.decide_and, decide_eq_decide]
  exact ⟨fun h => Pt.ext' h.1 h.2, fun h => by rw [h]; exact ⟨rfl, rfl⟩⟩

theorem pushPoint_fl {out : List (Pt ℚ)} {p : Pt ℚ} (h : out.length < clipMaxNVertex) :
    pushPoint (out.map fp) (fp p) = .ok ((out ++ [p]).map fp) := by
  unfold pushPoint; rw [List.length_map, if_pos h, List.map_append]; rfl

theorem shClipLoop_fl {r U N : Pt Fl} {ins : Pt ℚ → Bool} {I : Pt ℚ → Pt ℚ → Pt ℚ} (l : List (Pt ℚ)) (a : Pt ℚ)
    (out : List (Pt ℚ)) (hf : ∀ p ∈ a :: l, Fin300 p) (hins : ∀ p ∈ a :: l, shInside (fp p) r U = ins p)
    (hI : ∀ e ∈ (a :: l).zip l, ins e.1 ≠ ins e.2 →
      shIntersection (fp e.1) ⟨(fp e.2).x - (fp e.1).x, (fp e.2).y - (fp e.1).y⟩ r N = .ok (some (fp (I e.1 e.2))))
    (hlen : out.length + (((a :: l).zip l).flatMap (emit ins I)).length ≤ clipMaxNVertex) :
    shClipLoop r U N (fp a) (ins a) (l.map fp) (out.map fp) =
      .ok ((out ++ ((a :: l).zip l).flatMap (emit ins I)).map fp) := by
  induction l generalizing a out with
  | nil => simp [shClipLoop]
  | cons b l ih =>
    rw [List.zip_cons_cons, List.flatMap_cons] at hlen ⊢
    rw [List.map_cons]
    unfold shClipLoop
    simp only
    rw [vec_zero_iff (hf a (by simp)) (hf b (by simp))]
    have hI' : ∀ e ∈ (b :: l).zip l, ins e.1 ≠ ins e.2 →
        shIntersection (fp e.1) ⟨(fp e.2).x - (fp e.1).x, (fp e.2).y - (fp e.1).y⟩ r N = .ok (some (fp (I e.1 e.2))) :=
      fun e he => hI e (by rw [List.zip_cons_cons]; exact List.mem_cons_of_mem _ he)
    have hab := hI (a, b) (by rw [List.zip_cons_cons]; simp)
    simp only at hab
    have hf' : ∀ p ∈ b :: l, Fin300 p := fun p hp => hf p (List.mem_cons_of_mem _ hp)
    have hins' : ∀ p ∈ b :: l, shInside (fp p) r U = ins p := fun p hp => hins p (List.mem_cons_of_mem _ hp)
    by_cases e : a = b
    · subst e
      simp only [decide_true, if_true]
      have e1 : emit ins I (a, a) = [] := by simp [emit]
      rw [e1, List.nil_append] at hlen ⊢
      exact ih a out hf' hins' hI' hlen
    · simp only [e, decide_false, Bool.false_eq_true, if_false]
      rw [hins b (by simp)]
      rcases hb : ins b with _ | _ <;> rcases ha : ins a with _ | _
      · have e1 : emit ins I (a, b) = [] := by simp [emit, ha, hb]
        rw [e1, List.nil_append] at hlen ⊢
        simp only [Bool.false_eq_true, if_false]
        rw [← hb]
        exact ih b out hf' hins' hI' hlen
      · have e1 : emit ins I (a, b) = [I a b] := by simp [emit, ha, hb, e]
        rw [e1] at hlen ⊢
        simp only [Bool.false_eq_true, if_false, if_true]
        rw [hab (by rw [ha, hb]; simp), ok_bind]
        simp only
        rw [pushPoint_fl (by simp at hlen; omega), ok_bind, ← hb,
          ih b (out ++ [I a b]) hf' hins' hI' (by simp at hlen ⊢; omega)]
        simp
      · have e1 : emit ins I (a, b) = [I a b, b] := by simp [emit, ha, hb, e]
        rw [e1] at hlen ⊢
        simp only [if_true, Bool.not_false]
        rw [hab (by rw [ha, hb]; simp), ok_bind]
        simp only
        rw [pushPoint_fl (by simp at hlen; omega), ok_bind,
          pushPoint_fl (by simp at hlen ⊢; omega), ok_bind, ← hb,
          ih b (out ++ [I a b] ++ [b]) hf' hins' hI' (by simp at hlen ⊢; omega)]
        simp
      · have e1 : emit ins I (a, b) = [b] := by simp [emit, ha, hb, e]
        rw [e1] at hlen ⊢
        simp only [if_true, Bool.not_true, Bool.false_eq_true, if_false, ok_bind]
        rw [pushPoint_fl (by simp at hlen; omega), ok_bind, ← hb,
          ih b (out ++ [b]) hf' hins' hI' (by simp at hlen ⊢; omega)]
        simp

theorem cyc_eq {α : Type} {l : List α} (h : l ≠ []) : cyc l = (l.getLast h :: l).zip l := by
  unfold cyc
  have h1 : l.rotate (l.length - 1) = l.getLast h :: l.dropLast := by
    conv => lhs; rw [List.rotate_eq_drop_append_take (by omega)]
    rw [List.drop_length_sub_one h, List.dropLast_eq_take]; rfl
  rw [h1]
  have h2 : (l.getLast h :: l) = (l.getLast h :: l.dropLast) ++ [l.getLast h] := by
    rw [List.cons_append, List.dropLast_append_getLast]
  rw [h2]
  have h3 : (l.getLast h :: l.dropLast).length = l.length := by
    have := List.length_pos_of_ne_nil h
    simp; omega
  have h4 : ∀ (A B : List α) (x : α), A.length = B.length → A.zip B = (A ++ [x]).zip B := by
    intro A B x hl
    conv => rhs; rw [show B = B ++ [] by simp]
    rw [List.zip_append hl]; simp
  exact h4 _ _ _ h3

/-- One round of the outer loop. -/
theorem shOuterLoop_fl {r s U N : Pt Fl} {ins : Pt ℚ → Bool} {I : Pt ℚ → Pt ℚ → Pt ℚ} {l : List (Pt ℚ)} {rest : List (Pt Fl)}
    (hne : l ≠ []) (hU : U = ⟨s.x - r.x, s.y - r.y⟩) (hN : N = ⟨-U.y, U.x⟩) (h0 : (U.x == 0 && U.y == 0) = false)
    (hf : ∀ p ∈ l, Fin300 p) (hins : ∀ p ∈ l, shInside (fp p) r U = ins p)
    (hI : ∀ e ∈ ne (cyc l), ins e.1 ≠ ins e.2 →
      shIntersection (fp e.1) ⟨(fp e.2).x - (fp e.1).x, (fp e.2).y - (fp e.1).y⟩ r N = .ok (some (fp (I e.1 e.2))))
    (hlen : (clipE ins I l).length ≤ clipMaxNVertex) :
    shOuterLoop r (s :: rest) (l.map fp) =
      if (clipE ins I l).length < 3 then .ok none else shOuterLoop s rest ((clipE ins I l).map fp) := by
  subst hU
  subst hN
  simp only at h0
  conv => lhs; unfold shOuterLoop
  simp only
  rw [h0]
  simp only [Bool.false_eq_true, if_false]
  have hr : rdI (l.map fp) (((l.map fp).length : Int) - 1) = .ok (fp (l.getLast hne)) := by
    rw [rdI_length_sub_one (by simpa using hne), List.getLast_map]
  rw [hr, ok_bind, hins _ (List.getLast_mem hne)]
  have := shClipLoop_fl (r := r) (U := ⟨s.x - r.x, s.y - r.y⟩) (N := ⟨-(s.y - r.y), s.x - r.x⟩) (ins := ins) (I := I) l (l.getLast hne) []
    (by intro p hp
        rcases List.mem_cons.1 hp with rfl | hp
        · exact hf _ (List.getLast_mem hne)
        · exact hf p hp)
    (by intro p hp
        rcases List.mem_cons.1 hp with rfl | hp
        · exact hins _ (List.getLast_mem hne)
        · exact hins p hp)
    (by rw [← cyc_eq hne]
        intro e he h
        refine hI e ?_ h
        unfold ne
        rw [List.mem_filter]
        refine ⟨he, ?_⟩
        simp only [Bool.not_eq_true', decide_eq_false_iff_not]
        intro h'; rw [h'] at h; exact h rfl)
    (by rw [← cyc_eq hne]; simpa [clipE] using hlen)
  rw [← cyc_eq hne] at this
  simp only [List.map_nil, List.nil_append] at this
  rw [this, ok_bind]
  unfold clipE
  simp only [List.length_map]

end Celltree.Fl
