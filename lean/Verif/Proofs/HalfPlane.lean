import Verif.Proofs.CyrusBeck

/-!
# Clipping a convex polygon by a half-plane
-/

set_option linter.unusedSectionVars false

namespace Celltree

section
variable {K : Type} [Field K] [LinearOrder K] [IsStrictOrderedRing K]

/-! ## Inserting points on sides -/

theorem sublist_mid {α : Type} {L1 L2 : List α} {p : α} {m : List α} (h : List.Sublist m (L1 ++ p :: L2)) :
    List.Sublist m (L1 ++ L2) ∨ ∃ m1 m2, m = m1 ++ p :: m2 ∧ List.Sublist m1 L1 ∧ List.Sublist m2 L2 := by
  obtain ⟨m1, m2, rfl, h1, h2⟩ := List.sublist_append_iff.1 h
  cases h2 with
  | cons _ h2 => exact Or.inl (h1.append h2)
  | cons_cons _ h2 => exact Or.inr ⟨m1, _, rfl, h1, h2⟩

theorem sublist_put {α : Type} {L1 L2 m1 m2 : List α} (p : α) (h1 : List.Sublist m1 L1) (h2 : List.Sublist m2 L2) :
    List.Sublist (m1 ++ p :: m2) (L1 ++ p :: L2) := h1.append (h2.cons_cons p)

/-- Orientation is affine in each point. -/
theorem orient_mid (m1 m2 : List (Pt K)) (a b x y z : Pt K) (u : K) (e : [x, y, z] = m1 ++ lineAt a b u :: m2) :
    ∃ x1 y1 z1 x2 y2 z2, [x1, y1, z1] = m1 ++ a :: m2 ∧ [x2, y2, z2] = m1 ++ b :: m2 ∧
      orient x y z = (1 - u) * orient x1 y1 z1 + u * orient x2 y2 z2 := by
  rcases m1 with _ | ⟨m, _ | ⟨m', _ | ⟨m'', m1⟩⟩⟩
  · simp only [List.nil_append, List.cons.injEq] at e
    obtain ⟨rfl, rfl⟩ := e
    exact ⟨a, y, z, b, y, z, rfl, rfl, by unfold orient lineAt; ring⟩
  · simp only [List.cons_append, List.nil_append, List.cons.injEq] at e
    obtain ⟨rfl, rfl, rfl⟩ := e
    exact ⟨x, a, z, x, b, z, rfl, rfl, by unfold orient lineAt; ring⟩
  · simp only [List.cons_append, List.nil_append, List.cons.injEq] at e
    obtain ⟨rfl, rfl, rfl, rfl⟩ := e
    exact ⟨x, y, a, x, y, b, rfl, rfl, by unfold orient lineAt; ring⟩
  · simp at e

/-- A repeated corner. -/
theorem ConvexPoly.dup {l1 l2 : List (Pt K)} {a : Pt K} (h : ConvexPoly (l1 ++ a :: l2)) : ConvexPoly (l1 ++ a :: a :: l2) := by
  refine ⟨fun x y z hs => ?_, ?_⟩
  · rcases sublist_mid hs with hs | ⟨m1, m2, e, h1, h2⟩
    · exact h.turn x y z hs
    · cases h2 with
      | cons _ h2 => exact h.turn x y z (e ▸ sublist_put a h1 h2)
      | cons_cons _ h2 =>
        rcases m1 with _ | ⟨m, _ | ⟨m', m1⟩⟩
        · simp only [List.nil_append, List.cons.injEq] at e
          obtain ⟨rfl, rfl, _⟩ := e
          rw [orient_same]
        · simp only [List.cons_append, List.nil_append, List.cons.injEq] at e
          obtain ⟨rfl, rfl, rfl, _⟩ := e
          rw [← orient_rot x, orient_same]
        · have := congrArg List.length e
          simp at this
          omega
  · obtain ⟨x, y, z, hs, hpos⟩ := h.nondeg
    exact ⟨x, y, z, hs.trans ((List.Sublist.refl l1).append (List.sublist_cons_self a _)), hpos⟩

/-- A point between two possible corners is a possible corner. -/
theorem ConvexPoly.mid {L1 L2 : List (Pt K)} {a b : Pt K} (ha : ConvexPoly (L1 ++ a :: L2)) (hb : ConvexPoly (L1 ++ b :: L2))
    {l : List (Pt K)} (hl : ConvexPoly l) (hsub : List.Sublist l (L1 ++ L2)) {u : K} (h0 : 0 ≤ u) (h1 : u ≤ 1) :
    ConvexPoly (L1 ++ lineAt a b u :: L2) := by
  refine ⟨fun x y z hs => ?_, ?_⟩
  · rcases sublist_mid hs with hs | ⟨m1, m2, e, g1, g2⟩
    · exact ha.turn x y z (hs.trans ((List.Sublist.refl L1).append (List.sublist_cons_self a _)))
    · obtain ⟨x1, y1, z1, x2, y2, z2, e1, e2, eq⟩ := orient_mid m1 m2 a b x y z u e
      rw [eq]
      exact add_nonneg (mul_nonneg (by linarith) (ha.turn _ _ _ (e1 ▸ sublist_put a g1 g2)))
        (mul_nonneg h0 (hb.turn _ _ _ (e2 ▸ sublist_put b g1 g2)))
  · obtain ⟨x, y, z, hs, hpos⟩ := hl.nondeg
    exact ⟨x, y, z, hs.trans (hsub.trans ((List.Sublist.refl L1).append (List.sublist_cons_self _ _))), hpos⟩

/-- A point on a side can be added as a corner. -/
theorem ConvexPoly.insert {l1 l2 : List (Pt K)} {a b : Pt K} (h : ConvexPoly (l1 ++ a :: b :: l2)) {u : K} (h0 : 0 ≤ u)
    (h1 : u ≤ 1) : ConvexPoly (l1 ++ a :: lineAt a b u :: b :: l2) := by
  have ha : ConvexPoly ((l1 ++ [a]) ++ a :: (b :: l2)) := by simpa using h.dup
  have hb : ConvexPoly ((l1 ++ [a]) ++ b :: (b :: l2)) := ConvexPoly.dup (by simpa using h)
  have := ha.mid hb h (by simp) h0 h1
  simpa using this

theorem ConvexPoly.insert_front {l : List (Pt K)} (h : ConvexPoly l) (hne : l ≠ []) {u : K} (h0 : 0 ≤ u) (h1 : u ≤ 1) :
    ConvexPoly (lineAt (l.getLast hne) (l.head hne) u :: l) := by
  have ha : ConvexPoly ([] ++ l.getLast hne :: l) := by
    have e := List.dropLast_append_getLast hne
    have h2 : ConvexPoly (l.dropLast ++ l.getLast hne :: l.getLast hne :: []) := ConvexPoly.dup (by rw [e]; exact h)
    have : l.dropLast ++ l.getLast hne :: l.getLast hne :: [] = l ++ [l.getLast hne] := by
      conv => rhs; lhs; rw [← e]
      simp
    rw [this] at h2
    exact h2.append_comm
  have hb : ConvexPoly ([] ++ l.head hne :: l) := by
    have h2 : ConvexPoly ([] ++ l.head hne :: l.head hne :: l.tail) := ConvexPoly.dup (by simpa using h)
    simpa using h2
  exact ha.mid hb h (by simp) h0 h1

/-- Corners of a convex polygon, not all on one line, form a convex polygon. -/
theorem ConvexPoly.sublist {l m : List (Pt K)} (h : ConvexPoly l) (hs : List.Sublist m l) {x y z : Pt K} (hx : x ∈ m)
    (hy : y ∈ m) (hz : z ∈ m) (hne : orient x y z ≠ 0) : ConvexPoly m := by
  refine ⟨fun a b c hh => h.turn a b c (hh.trans hs), ?_⟩
  by_contra hno
  push Not at hno
  have hzero : ∀ a b c, List.Sublist [a, b, c] m → orient a b c = 0 := fun a b c hh =>
    le_antisymm (hno a b c hh) (h.turn a b c (hh.trans hs))
  apply hne
  -- the three, in the order in which they are in the list
  have two : ∀ {u v : Pt K}, u ∈ m → v ∈ m → u ≠ v → List.Sublist [u, v] m ∨ List.Sublist [v, u] m := by
    intro u v hu hv huv
    obtain ⟨m1, m2, rfl⟩ := List.append_of_mem hu
    rcases List.mem_append.1 hv with hv | hv
    · exact Or.inr ((List.singleton_sublist.2 hv).append (List.singleton_sublist.2 List.mem_cons_self))
    · rcases List.mem_cons.1 hv with rfl | hv
      · exact (huv rfl).elim
      · exact Or.inl (((List.singleton_sublist.2 hv).cons_cons u).trans (List.sublist_append_right _ _))
  by_cases exy : x = y
  · rw [exy, orient_same]
  by_cases eyz : y = z
  · rw [eyz, orient_self_right]
  by_cases exz : x = z
  · rw [exz, orient_self_left]
  have three : ∀ {u v w : Pt K}, List.Sublist [u, v] m → w ∈ m → w ≠ u → w ≠ v →
      List.Sublist [w, u, v] m ∨ List.Sublist [u, w, v] m ∨ List.Sublist [u, v, w] m := by
    intro u v w huv hw h1 h2
    obtain ⟨m1, m2, rfl⟩ := List.append_of_mem hw
    rcases sublist_mid huv with huv | ⟨n1, n2, e, g1, g2⟩
    · obtain ⟨n1, n2, e, g1, g2⟩ := List.sublist_append_iff.1 huv
      have := sublist_put w g1 g2
      rcases n1 with _ | ⟨n, _ | ⟨n', _ | ⟨n'', n1⟩⟩⟩
      · simp only [List.nil_append] at e; subst e
        exact Or.inl this
      · simp only [List.cons_append, List.nil_append, List.cons.injEq] at e
        obtain ⟨rfl, rfl⟩ := e
        exact Or.inr (Or.inl this)
      · simp only [List.cons_append, List.nil_append, List.cons.injEq] at e
        obtain ⟨rfl, rfl, rfl⟩ := e
        exact Or.inr (Or.inr this)
      · simp at e
    · have : w ∈ [u, v] := by rw [e]; simp
      simp only [List.mem_cons, List.not_mem_nil, or_false] at this
      rcases this with rfl | rfl
      · exact (h1 rfl).elim
      · exact (h2 rfl).elim
  rcases two hx hy exy with hh | hh
  · rcases three hh hz (Ne.symm exz) (Ne.symm eyz) with g | g | g
    · rw [orient_rot z x y]; exact hzero _ _ _ g
    · have := hzero _ _ _ g
      have e : orient x y z = - orient x z y := by unfold orient; ring
      rw [e, this]; simp
    · exact hzero _ _ _ g
  · rcases three hh hz (Ne.symm eyz) (Ne.symm exz) with g | g | g
    · have := hzero _ _ _ g
      have e : orient x y z = - orient z y x := by unfold orient; ring
      rw [e, this]; simp
    · rw [← orient_rot x y z]; exact hzero _ _ _ g
    · have := hzero _ _ _ g
      have e : orient x y z = - orient y x z := by unfold orient; ring
      rw [e, this]; simp

/-! ## The clip -/

/-- Where the line from `a` to `b` crosses the line through `r` and `s`. -/
def cutPoint (r s a b : Pt K) : Pt K := lineAt a b (-orient r s a / (orient r s b - orient r s a))

/-- The two ends are on different sides of the line. -/
def Opp (r s a b : Pt K) : Prop := (orient r s a ≤ 0 ∧ 0 < orient r s b) ∨ (0 < orient r s a ∧ orient r s b ≤ 0)

theorem Opp.param {r s a b : Pt K} (h : Opp r s a b) : ∃ u, 0 ≤ u ∧ u ≤ 1 ∧ cutPoint r s a b = lineAt a b u := by
  refine ⟨_, ?_, ?_, rfl⟩
  · rcases h with ⟨h1, h2⟩ | ⟨h1, h2⟩
    · exact div_nonneg (by linarith) (by linarith)
    · exact div_nonneg_of_nonpos (by linarith) (by linarith)
  · rcases h with ⟨h1, h2⟩ | ⟨h1, h2⟩
    · rw [div_le_one (by linarith)]; linarith
    · rw [div_le_one_of_neg (by linarith)]; linarith

theorem Opp.on_line {r s a b : Pt K} (h : Opp r s a b) : orient r s (cutPoint r s a b) = 0 := by
  have hne : orient r s b - orient r s a ≠ 0 := by
    rcases h with ⟨h1, h2⟩ | ⟨h1, h2⟩ <;> intro h0 <;> linarith
  unfold cutPoint
  rw [orient_lineAt]
  field_simp
  ring

/-- The corners of the clipped polygon: `a` is the previous corner. -/
def clipGo (r s : Pt K) : Pt K → List (Pt K) → List (Pt K)
  | _, [] => []
  | a, b :: l =>
    if a = b then clipGo r s a l
    else if 0 < orient r s b then
      (if 0 < orient r s a then [] else [cutPoint r s a b]) ++ b :: clipGo r s b l
    else if 0 < orient r s a then cutPoint r s a b :: clipGo r s b l
    else clipGo r s b l

/-- The polygon clipped by the half-plane on the left of the line from `r` to `s`. -/
def clipHalf (r s : Pt K) (l : List (Pt K)) : List (Pt K) :=
  match l.getLast? with
  | none => []
  | some a => clipGo r s a l

theorem clipHalf_eq {r s : Pt K} {l : List (Pt K)} (h : l ≠ []) : clipHalf r s l = clipGo r s (l.getLast h) l := by
  unfold clipHalf; rw [List.getLast?_eq_getLast_of_ne_nil h]

/-- The polygon with the crossings added. -/
def refine (r s : Pt K) : Pt K → List (Pt K) → List (Pt K)
  | _, [] => []
  | a, b :: l => (if (0 < orient r s a) ↔ (0 < orient r s b) then [] else [cutPoint r s a b]) ++ b :: refine r s b l

theorem clipGo_sublist (r s a : Pt K) (l : List (Pt K)) : List.Sublist (clipGo r s a l) (refine r s a l) := by
  induction l generalizing a with
  | nil => simp [clipGo]
  | cons b l ih =>
    unfold clipGo refine
    by_cases hab : a = b
    · subst hab
      simp only [if_true]
      exact (ih a).trans (by simp)
    · rw [if_neg hab]
      by_cases hb : 0 < orient r s b <;> by_cases ha : 0 < orient r s a
      · simp only [hb, ha, if_true]
        exact ((ih b).cons_cons b)
      · simp only [hb, ha, if_true, if_false, false_iff, not_true_eq_false]
        exact ((ih b).cons_cons b).cons_cons _
      · simp only [hb, ha, if_true, if_false, true_iff]
        exact ((ih b).cons b).cons_cons _
      · simp only [hb, ha, if_false, if_true]
        exact (ih b).cons b

theorem opp_of_not_iff {r s a b : Pt K} (h : ¬ ((0 < orient r s a) ↔ (0 < orient r s b))) : Opp r s a b := by
  unfold Opp
  by_cases ha : 0 < orient r s a <;> by_cases hb : 0 < orient r s b
  · exact (h ⟨fun _ => hb, fun _ => ha⟩).elim
  · exact Or.inr ⟨ha, not_lt.1 hb⟩
  · exact Or.inl ⟨not_lt.1 ha, hb⟩
  · exact (h ⟨fun h => (ha h).elim, fun h => (hb h).elim⟩).elim

theorem refine_convex (r s a : Pt K) (l l1 : List (Pt K)) (h : ConvexPoly (l1 ++ a :: l)) :
    ConvexPoly (l1 ++ a :: refine r s a l) := by
  induction l generalizing a l1 with
  | nil => exact h
  | cons b l ih =>
    unfold refine
    by_cases hc : (0 < orient r s a) ↔ (0 < orient r s b)
    · rw [if_pos hc]
      have := ih b (l1 ++ [a]) (by simpa using h)
      simpa using this
    · rw [if_neg hc]
      obtain ⟨u, h0, h1, e⟩ := (opp_of_not_iff hc).param
      have h2 := h.insert h0 h1
      rw [← e] at h2
      have := ih b (l1 ++ [a, cutPoint r s a b]) (by simpa using h2)
      simpa using this

theorem refine_convex_cycle (r s : Pt K) {l : List (Pt K)} (h : ConvexPoly l) (hne : l ≠ []) :
    ConvexPoly (refine r s (l.getLast hne) l) := by
  match l, hne with
  | b :: l, hne =>
    unfold refine
    by_cases hc : (0 < orient r s ((b :: l).getLast hne)) ↔ (0 < orient r s b)
    · rw [if_pos hc]
      exact refine_convex r s b l [] h
    · rw [if_neg hc]
      obtain ⟨u, h0, h1, e⟩ := (opp_of_not_iff hc).param
      have h2 := h.insert_front hne h0 h1
      rw [List.head_cons, ← e] at h2
      exact refine_convex r s b l [cutPoint r s ((b :: l).getLast hne) b] h2

/-- Corners on the left of the line are kept. -/
theorem clipGo_keeps {r s : Pt K} {a : Pt K} {l : List (Pt K)} {p : Pt K × Pt K} (hp : p ∈ pairs (a :: l)) (hne : p.1 ≠ p.2) :
    (0 < orient r s p.2 → p.2 ∈ clipGo r s a l) ∧ (Opp r s p.1 p.2 → cutPoint r s p.1 p.2 ∈ clipGo r s a l) := by
  induction l generalizing a with
  | nil => simp at hp
  | cons b l ih =>
    rw [pairs_cons_cons, List.mem_cons] at hp
    unfold clipGo
    rcases hp with rfl | hp
    · rw [if_neg hne]
      refine ⟨fun h => ?_, fun h => ?_⟩
      · rw [if_pos h]; simp
      · rcases h with ⟨h1, h2⟩ | ⟨h1, h2⟩
        · rw [if_pos h2, if_neg (not_lt.2 h1)]; simp
        · rw [if_neg (not_lt.2 h2), if_pos h1]; simp
    · have := ih hp
      by_cases hab : a = b
      · subst hab
        rw [if_pos rfl]; exact this
      · rw [if_neg hab]
        split_ifs
        · exact ⟨fun h => by simp [this.1 h], fun h => by simp [this.2 h]⟩
        · exact ⟨fun h => by simp [this.1 h], fun h => by simp [this.2 h]⟩
        · exact ⟨fun h => by simp [this.1 h], fun h => by simp [this.2 h]⟩
        · exact this

theorem mem_sides_pairs {α : Type} {l : List α} (h : l ≠ []) {s : α × α} : s ∈ sides l ↔ s ∈ pairs (l.getLast h :: l) := by
  match l, h with
  | a :: l, h => exact (sides_perm a l).mem_iff

/-- Where the corners of the clipped polygon come from. -/
theorem clipGo_mem {r s : Pt K} {a : Pt K} {l : List (Pt K)} {p : Pt K} (hp : p ∈ clipGo r s a l) :
    (p ∈ l ∧ 0 < orient r s p) ∨ ∃ q ∈ pairs (a :: l), Opp r s q.1 q.2 ∧ p = cutPoint r s q.1 q.2 := by
  induction l generalizing a with
  | nil => simp [clipGo] at hp
  | cons b l ih =>
    have lift : ∀ a', p ∈ clipGo r s a' l → (a' = b ∨ (a' = a ∧ a = b)) →
        (p ∈ b :: l ∧ 0 < orient r s p) ∨ ∃ q ∈ pairs (a :: b :: l), Opp r s q.1 q.2 ∧ p = cutPoint r s q.1 q.2 := by
      intro a' h e
      have e' : a' = b := by rcases e with e | ⟨e, e'⟩ <;> simp_all
      subst e'
      rcases ih h with ⟨h1, h2⟩ | ⟨q, h1, h2⟩
      · exact Or.inl ⟨List.mem_cons_of_mem _ h1, h2⟩
      · exact Or.inr ⟨q, by rw [pairs_cons_cons]; exact List.mem_cons_of_mem _ h1, h2⟩
    unfold clipGo at hp
    by_cases hab : a = b
    · rw [if_pos hab] at hp
      exact lift a hp (Or.inr ⟨rfl, hab⟩)
    · rw [if_neg hab] at hp
      by_cases hb : 0 < orient r s b
      · rw [if_pos hb, List.mem_append, List.mem_cons] at hp
        rcases hp with hp | rfl | hp
        · by_cases ha : 0 < orient r s a
          · rw [if_pos ha] at hp; simp at hp
          · rw [if_neg ha, List.mem_singleton] at hp
            exact Or.inr ⟨(a, b), by simp, Or.inl ⟨not_lt.1 ha, hb⟩, hp⟩
        · exact Or.inl ⟨List.mem_cons_self, hb⟩
        · exact lift b hp (Or.inl rfl)
      · rw [if_neg hb] at hp
        by_cases ha : 0 < orient r s a
        · rw [if_pos ha, List.mem_cons] at hp
          rcases hp with hp | hp
          · exact Or.inr ⟨(a, b), by simp, Or.inr ⟨ha, not_lt.1 hb⟩, hp⟩
          · exact lift b hp (Or.inl rfl)
        · rw [if_neg ha] at hp
          exact lift b hp (Or.inl rfl)

theorem clipHalf_mem {r s : Pt K} {l : List (Pt K)} (h : ConvexPoly l) {p : Pt K} (hp : p ∈ clipHalf r s l) :
    InPoly l p ∧ 0 ≤ orient r s p := by
  rw [clipHalf_eq h.ne_nil] at hp
  rcases clipGo_mem hp with ⟨h1, h2⟩ | ⟨q, h1, h2, rfl⟩
  · exact ⟨h.corner_inPoly h1, h2.le⟩
  · have hq := (mem_sides_pairs h.ne_nil).2 h1
    obtain ⟨u, h0, hu, e⟩ := h2.param
    refine ⟨?_, h2.on_line.ge⟩
    rw [e]
    exact InPoly.convex (h.corner_inPoly (mem_sides_mem hq).1) (h.corner_inPoly (mem_sides_mem hq).2) h0 hu

/-- The clipped polygon is a convex polygon, if some corner is strictly on the left of the line. -/
theorem clipHalf_convex {r s : Pt K} {l : List (Pt K)} (h : ConvexPoly l) {w : Pt K} (hw : w ∈ l)
    (hpos : 0 < orient r s w) : ConvexPoly (clipHalf r s l) := by
  have hne := h.ne_nil
  rw [clipHalf_eq hne]
  have hsub := clipGo_sublist r s (l.getLast hne) l
  have hR := refine_convex_cycle r s h hne
  have kept : ∀ q ∈ sides l, q.1 ≠ q.2 → (0 < orient r s q.2 → q.2 ∈ clipGo r s (l.getLast hne) l) ∧
      (Opp r s q.1 q.2 → cutPoint r s q.1 q.2 ∈ clipGo r s (l.getLast hne) l) := fun q hq hn =>
    clipGo_keeps ((mem_sides_pairs hne).1 hq) hn
  have inside : ∀ v ∈ l, 0 < orient r s v → v ∈ clipGo r s (l.getLast hne) l := by
    intro v hv hp
    obtain ⟨u, hu, hun⟩ := h.side_to hv
    exact (kept (u, v) hu hun).1 hp
  by_cases hall : ∀ v ∈ l, 0 < orient r s v
  · obtain ⟨x, y, z, hs, ho⟩ := h.nondeg
    exact hR.sublist hsub (x := x) (y := y) (z := z) (inside x (hs.subset (by simp)) (hall x (hs.subset (by simp))))
      (inside y (hs.subset (by simp)) (hall y (hs.subset (by simp))))
      (inside z (hs.subset (by simp)) (hall z (hs.subset (by simp)))) ho.ne'
  · push Not at hall
    obtain ⟨v, hv, hvn⟩ := hall
    obtain ⟨e, he, e1, e2⟩ := exists_up (fun p => decide (0 < orient r s p)) hv hw (by simpa using hvn) (by simpa using hpos)
    obtain ⟨x, hx, x1, x2⟩ := exists_up (fun p => decide (¬ 0 < orient r s p)) hw hv (by simpa using hpos) (by simpa using hvn)
    simp only [decide_eq_false_iff_not, decide_eq_true_eq] at e1 e2
    simp only [decide_eq_false_iff_not, decide_eq_true_eq, not_not] at x1 x2
    rw [not_lt] at e1 x2
    have ene : e.1 ≠ e.2 := by intro hh; rw [hh] at e1; linarith
    have xne : x.1 ≠ x.2 := by intro hh; rw [hh] at x1; linarith
    have k1 := kept e he ene
    have k2 := kept x hx xne
    have m1 := k1.1 e2
    have o1 : Opp r s e.1 e.2 := Or.inl ⟨e1, e2⟩
    have o2 : Opp r s x.1 x.2 := Or.inr ⟨x1, x2⟩
    have m2 := k1.2 o1
    have m3 := inside x.1 (mem_sides_mem hx).1 x1
    have m4 := k2.2 o2
    -- not all four on one line
    by_contra hno
    have c1 : orient (cutPoint r s e.1 e.2) e.2 x.1 = 0 := by
      by_contra hh; exact hno (hR.sublist hsub m2 m1 m3 hh)
    have c2 : orient (cutPoint r s e.1 e.2) e.2 (cutPoint r s x.1 x.2) = 0 := by
      by_contra hh; exact hno (hR.sublist hsub m2 m1 m4 hh)
    have l1 := o1.on_line
    have l2 := o2.on_line
    apply h.not_collinear ene
    intro p hp
    have s1 := h.support he hp
    have s2 := h.support hx hp
    refine le_antisymm ?_ s1
    -- both ends of the leaving side are on the line of the entering side
    have param : ∀ q, orient (cutPoint r s e.1 e.2) e.2 q = (orient r s e.2 / (orient r s e.2 - orient r s e.1)) * orient e.1 e.2 q := by
      intro q
      have hd : orient r s e.2 - orient r s e.1 ≠ 0 := by intro h0; linarith
      have : orient (cutPoint r s e.1 e.2) e.2 q = (1 - -orient r s e.1 / (orient r s e.2 - orient r s e.1)) * orient e.1 e.2 q := by
        unfold cutPoint
        generalize -orient r s e.1 / (orient r s e.2 - orient r s e.1) = u
        unfold orient lineAt; ring
      rw [this]
      congr 1
      field_simp
      ring
    have hk : 0 < orient r s e.2 / (orient r s e.2 - orient r s e.1) := div_pos e2 (by linarith)
    rw [param] at c1 c2
    have d1 : orient e.1 e.2 x.1 = 0 := by
      rcases mul_eq_zero.1 c1 with h | h
      · exact (hk.ne' h).elim
      · exact h
    have d2 : orient e.1 e.2 (cutPoint r s x.1 x.2) = 0 := by
      rcases mul_eq_zero.1 c2 with h | h
      · exact (hk.ne' h).elim
      · exact h
    have d3 : orient x.1 x.2 p * orient r s x.1 = orient x.1 (cutPoint r s x.1 x.2) p * (orient r s x.1 - orient r s x.2) := by
      have hd : orient r s x.2 - orient r s x.1 ≠ 0 := by intro h0; linarith
      have : orient x.1 (cutPoint r s x.1 x.2) p = (-orient r s x.1 / (orient r s x.2 - orient r s x.1)) * orient x.1 x.2 p := by
        unfold cutPoint
        generalize -orient r s x.1 / (orient r s x.2 - orient r s x.1) = u
        unfold orient lineAt; ring
      rw [this]
      field_simp
      ring
    have d4 : 0 ≤ orient x.1 (cutPoint r s x.1 x.2) p := by
      by_contra hh
      push Not at hh
      have := mul_neg_of_neg_of_pos hh (show 0 < orient r s x.1 - orient r s x.2 by linarith)
      have := mul_nonneg s2 x1.le
      linarith
    have d5 : (orient r s e.2 - orient r s e.1) * orient x.1 (cutPoint r s x.1 x.2) p =
        (orient r s (cutPoint r s x.1 x.2) - orient r s x.1) * orient e.1 e.2 p := by
      generalize cutPoint r s x.1 x.2 = c at *
      unfold orient at d1 d2 ⊢
      linear_combination (-((s.x - r.x) * (p.y - x.1.y) - (s.y - r.y) * (p.x - x.1.x))) * (d2 - d1) -
        ((s.x - r.x) * (c.y - x.1.y) - (s.y - r.y) * (c.x - x.1.x)) * d1
    rw [l2] at d5
    have d6 := mul_nonneg (show 0 ≤ orient r s e.2 - orient r s e.1 by linarith) d4
    by_contra hh
    push Not at hh
    have := mul_pos x1 hh
    linarith

end
end Celltree
