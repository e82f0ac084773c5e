import Verif.Proofs.FloatTagged

/-!
# One round of clipping, in binary64 and in exact arithmetic
-/

set_option linter.unusedSectionVars false

namespace Celltree.Fl

/-! ## Lists -/

theorem zip_eq_pairs {α : Type} (a : α) (l : List α) : (a :: l).zip l = pairs (a :: l) := by
  induction l generalizing a with
  | nil => rfl
  | cons b l ih => rw [List.zip_cons_cons, ih b]; rfl

theorem mem_cyc {α : Type} {l : List α} {q : α × α} : q ∈ cyc l ↔ q ∈ sides l := by
  by_cases h : l = []
  · subst h; simp [cyc, sides]
  · rw [cyc_eq h, zip_eq_pairs, mem_sides_pairs h]

theorem cyc_map {α β : Type} (g : α → β) (l : List α) : cyc (l.map g) = (cyc l).map (Prod.map g g) := by
  unfold cyc
  rw [List.length_map, ← List.map_rotate, List.zip_map]

theorem emit_map {α β : Type} [DecidableEq α] [DecidableEq β] {g : α → β} {ins : α → Bool} {ins' : β → Bool} {I : α → α → α}
    {I' : β → β → β} {L : List (α × α)} (h1 : ∀ q ∈ L, q.1 ≠ q.2 ∧ g q.1 ≠ g q.2)
    (h2 : ∀ q ∈ L, ins' (g q.1) = ins q.1 ∧ ins' (g q.2) = ins q.2)
    (h3 : ∀ q ∈ L, ins q.1 ≠ ins q.2 → I' (g q.1) (g q.2) = g (I q.1 q.2)) :
    (L.map (Prod.map g g)).flatMap (emit ins' I') = (L.flatMap (emit ins I)).map g := by
  induction L with
  | nil => rfl
  | cons q L ih =>
    rw [List.map_cons, List.flatMap_cons, List.flatMap_cons, List.map_append,
      ih (fun q hq => h1 q (by simp [hq])) (fun q hq => h2 q (by simp [hq])) fun q hq => h3 q (by simp [hq])]
    congr 1
    obtain ⟨a, b⟩ := q
    have m1 := h1 (a, b) (by simp)
    have m2 := h2 (a, b) (by simp)
    have m3 := h3 (a, b) (by simp)
    simp only at m1 m2 m3
    unfold emit
    simp only [Prod.map_apply, if_neg m1.1, if_neg m1.2, m2.1, m2.2]
    rcases ha : ins a with _ | _ <;> rcases hb : ins b with _ | _ <;> simp_all

theorem clipE_map {α β : Type} [DecidableEq α] [DecidableEq β] {g : α → β} {ins : α → Bool} {ins' : β → Bool} {I : α → α → α}
    {I' : β → β → β} {T : List α} (h1 : ∀ q ∈ cyc T, q.1 ≠ q.2 ∧ g q.1 ≠ g q.2)
    (h2 : ∀ v ∈ T, ins' (g v) = ins v)
    (h3 : ∀ q ∈ cyc T, ins q.1 ≠ ins q.2 → I' (g q.1) (g q.2) = g (I q.1 q.2)) :
    clipE ins' I' (T.map g) = (clipE ins I T).map g := by
  unfold clipE
  rw [cyc_map]
  refine emit_map h1 (fun q hq => ?_) h3
  have := mem_sides_mem (mem_cyc.1 hq)
  exact ⟨h2 _ this.1, h2 _ this.2⟩

theorem clipGo_emit {r s : Pt ℚ} (a : Pt ℚ) (l : List (Pt ℚ)) :
    clipGo r s a l = ((a :: l).zip l).flatMap (emit (fun v => decide (0 < orient r s v)) (cutPoint r s)) := by
  induction l generalizing a with
  | nil => rfl
  | cons b l ih =>
    rw [List.zip_cons_cons, List.flatMap_cons, ← ih b]
    rw [clipGo]
    unfold emit
    by_cases hab : a = b
    · subst hab; simp
    · simp only [if_neg hab, decide_eq_true_eq]
      split_ifs <;> simp

theorem clipHalf_emit {r s : Pt ℚ} (l : List (Pt ℚ)) :
    clipHalf r s l = clipE (fun v => decide (0 < orient r s v)) (cutPoint r s) l := by
  by_cases h : l = []
  · subst h; rfl
  · rw [clipHalf_eq h, clipGo_emit, clipE, cyc_eq h]

/-! ## The corners of the clipped polygon are linked -/

section
variable {α : Type} [DecidableEq α] {ins : α → Bool} {I : α → α → α} {R : α → α → Prop}

theorem emit_chain {T : List α} (hne : ∀ q ∈ cyc T, q.1 ≠ q.2)
    (h1 : ∀ q ∈ cyc T, ins q.1 = true → ins q.2 = true → R q.1 q.2)
    (h2 : ∀ q ∈ cyc T, ins q.1 = true → ins q.2 = false → R q.1 (I q.1 q.2))
    (h3 : ∀ q ∈ cyc T, ins q.1 = false → ins q.2 = true → R (I q.1 q.2) q.2)
    (h4 : ∀ q ∈ cyc T, ∀ q' ∈ cyc T, ins q.1 = true → ins q.2 = false → ins q'.1 = false → ins q'.2 = true →
      R (I q.1 q.2) (I q'.1 q'.2)) (l : List α) (o a : α) (hsub : ∀ q ∈ (a :: l).zip l, q ∈ cyc T)
    (ho : (ins a = true ∧ o = a) ∨ (ins a = false ∧ ∃ q ∈ cyc T, ins q.1 = true ∧ ins q.2 = false ∧ o = I q.1 q.2)) :
    (∀ q ∈ (o :: ((a :: l).zip l).flatMap (emit ins I)).zip (((a :: l).zip l).flatMap (emit ins I)), R q.1 q.2) ∧
      (ins ((a :: l).getLast (by simp)) = true →
        (o :: ((a :: l).zip l).flatMap (emit ins I)).getLast (by simp) = (a :: l).getLast (by simp)) := by
  induction l generalizing o a with
  | nil =>
    simp only [List.zip_nil_right, List.flatMap_nil, List.not_mem_nil, IsEmpty.forall_iff, implies_true, List.getLast_singleton,
      true_and]
    intro h
    rcases ho with ⟨_, h'⟩ | ⟨h', _⟩
    · exact h'
    · rw [h] at h'; cases h'
  | cons b l ih =>
    have hab : (a, b) ∈ cyc T := hsub _ (by rw [List.zip_cons_cons]; simp)
    have hn := hne _ hab
    have hs' : ∀ q ∈ (b :: l).zip l, q ∈ cyc T := fun q hq => hsub q (by rw [List.zip_cons_cons]; simp [hq])
    rw [List.zip_cons_cons, List.flatMap_cons]
    have eL : (a :: b :: l).getLast (by simp) = (b :: l).getLast (by simp) := by simp
    rw [eL]
    rcases hb : ins b with _ | _ <;> rcases ha : ins a with _ | _
    · have e1 : emit ins I (a, b) = [] := by simp [emit, ha, hb]
      rw [e1, List.nil_append]
      refine ih o b hs' (Or.inr ⟨hb, ?_⟩)
      rcases ho with ⟨h, _⟩ | ⟨_, h⟩
      · rw [ha] at h; cases h
      · exact h
    · have e1 : emit ins I (a, b) = [I a b] := by simp [emit, ha, hb]; exact hn
      rw [e1, List.singleton_append]
      have ho' : o = a := by
        rcases ho with ⟨_, h⟩ | ⟨h, _⟩
        · exact h
        · rw [ha] at h; cases h
      subst ho'
      obtain ⟨i1, i2⟩ := ih (I o b) b hs' (Or.inr ⟨hb, (o, b), hab, ha, hb, rfl⟩)
      refine ⟨fun q hq => ?_, fun h => ?_⟩
      · rw [List.zip_cons_cons] at hq
        rcases List.mem_cons.1 hq with rfl | hq
        · exact h2 _ hab ha hb
        · exact i1 q hq
      · rw [List.getLast_cons (by simp)]; exact i2 h
    · have e1 : emit ins I (a, b) = [I a b, b] := by simp [emit, ha, hb]; exact hn
      rw [e1]
      obtain ⟨i1, i2⟩ := ih b b hs' (Or.inl ⟨hb, rfl⟩)
      refine ⟨fun q hq => ?_, fun h => ?_⟩
      · simp only [List.cons_append, List.nil_append] at hq
        rw [List.zip_cons_cons, List.zip_cons_cons] at hq
        rcases List.mem_cons.1 hq with rfl | hq
        · rcases ho with ⟨h, _⟩ | ⟨_, q', hq', g1, g2, rfl⟩
          · rw [ha] at h; cases h
          · exact h4 q' hq' _ hab g1 g2 ha hb
        rcases List.mem_cons.1 hq with rfl | hq
        · exact h3 _ hab ha hb
        · exact i1 q hq
      · simp only [List.cons_append, List.nil_append]
        rw [List.getLast_cons (by simp), List.getLast_cons (by simp)]; exact i2 h
    · have e1 : emit ins I (a, b) = [b] := by simp [emit, ha, hb]; exact hn
      rw [e1, List.singleton_append]
      have ho' : o = a := by
        rcases ho with ⟨_, h⟩ | ⟨h, _⟩
        · exact h
        · rw [ha] at h; cases h
      subst ho'
      obtain ⟨i1, i2⟩ := ih b b hs' (Or.inl ⟨hb, rfl⟩)
      refine ⟨fun q hq => ?_, fun h => ?_⟩
      · rw [List.zip_cons_cons] at hq
        rcases List.mem_cons.1 hq with rfl | hq
        · exact h1 _ hab ha hb
        · exact i1 q hq
      · rw [List.getLast_cons (by simp)]; exact i2 h

/-- If some corner is inside, then consecutive corners of the clipped polygon are related. -/
theorem clipE_linked {T : List α} (hne : ∀ q ∈ cyc T, q.1 ≠ q.2)
    (h1 : ∀ q ∈ cyc T, ins q.1 = true → ins q.2 = true → R q.1 q.2)
    (h2 : ∀ q ∈ cyc T, ins q.1 = true → ins q.2 = false → R q.1 (I q.1 q.2))
    (h3 : ∀ q ∈ cyc T, ins q.1 = false → ins q.2 = true → R (I q.1 q.2) q.2)
    (h4 : ∀ q ∈ cyc T, ∀ q' ∈ cyc T, ins q.1 = true → ins q.2 = false → ins q'.1 = false → ins q'.2 = true →
      R (I q.1 q.2) (I q'.1 q'.2)) {w : α} (hw : w ∈ T) (hin : ins w = true) :
    ∀ q ∈ cyc (clipE ins I T), R q.1 q.2 := by
  obtain ⟨m1, m2, rfl⟩ := List.append_of_mem hw
  have hr : (m1 ++ w :: m2) ~r (m2 ++ (m1 ++ [w])) := by
    have : m1 ++ w :: m2 = (m1 ++ [w]) ++ m2 := by simp
    rw [this]
    exact List.isRotated_append
  have hc := cyc_rotated hr
  have hcl : clipE ins I (m1 ++ w :: m2) ~r clipE ins I (m2 ++ (m1 ++ [w])) := flatMap_rotated hc _
  intro q hq
  have hq' := (cyc_rotated hcl).mem_iff.1 hq
  set T' := m2 ++ (m1 ++ [w]) with hT'
  have hT0 : T' ≠ [] := by simp [hT']
  have hlast : T'.getLast hT0 = w := by simp [hT']
  have e := cyc_eq hT0
  rw [hlast] at e
  obtain ⟨i1, i2⟩ := emit_chain hne h1 h2 h3 h4 T' w w (fun q hq => hc.mem_iff.2 (e ▸ hq)) (Or.inl ⟨hin, rfl⟩)
  have el : (w :: T').getLast (by simp) = w := by rw [List.getLast_cons hT0, hlast]
  rw [el] at i2
  have i2 := i2 hin
  have eo : clipE ins I T' = ((w :: T').zip T').flatMap (emit ins I) := by unfold clipE; rw [e]
  rw [← eo] at i1 i2
  have hn : clipE ins I T' ≠ [] := by
    intro h0
    rw [h0] at hq'
    simp [cyc] at hq'
  rw [cyc_eq hn] at hq'
  rw [List.getLast_cons hn] at i2
  rw [i2] at hq'
  exact i1 q hq'

end

/-- What the corners of the clipped polygon are. -/
theorem clipE_mem {α : Type} [DecidableEq α] {ins : α → Bool} {I : α → α → α} {T : List α} {v : α} (hv : v ∈ clipE ins I T) :
    (v ∈ T ∧ ins v = true) ∨ ∃ q ∈ cyc T, ins q.1 ≠ ins q.2 ∧ v = I q.1 q.2 := by
  unfold clipE at hv
  obtain ⟨q, hq, h⟩ := List.mem_flatMap.1 hv
  have hm := mem_sides_mem (mem_cyc.1 hq)
  unfold emit at h
  split at h
  · simp at h
  split at h
  · rename_i hb
    split at h
    · rw [List.mem_singleton] at h
      subst h
      exact Or.inl ⟨hm.2, hb⟩
    · rename_i ha
      simp only [List.mem_cons, List.not_mem_nil, or_false] at h
      rcases h with rfl | rfl
      · exact Or.inr ⟨q, hq, by rw [hb]; exact ha, rfl⟩
      · exact Or.inl ⟨hm.2, hb⟩
  · rename_i hb
    split at h
    · rename_i ha
      rw [List.mem_singleton] at h
      subst h
      exact Or.inr ⟨q, hq, by rw [ha]; exact fun h => hb h.symm, rfl⟩
    · simp at h

/-! ## One round -/

/-- Whether the corner is inside. -/
def tins (k : Pt ℚ × Pt ℚ) (v : TV) : Bool := decide (0 < orient k.1 k.2 v.x)

/-- The corner that is added. -/
def tcut (k : Pt ℚ × Pt ℚ) (a b : TV) : TV :=
  ⟨fcut k.1 k.2 a.p b.p, cutPoint k.1 k.2 a.x b.x, if tins k a then a.f else k, if tins k a then k else a.f⟩

section
variable {M E ρ σ : ℚ} {l c : List (Pt ℚ)} (hM : 1 / 2 ^ 100 ≤ M) (hM' : M ≤ 2 ^ 198) (hg : GenPair M E ρ σ l c)
  {U : List (Pt ℚ × Pt ℚ)} {δ : ℚ} (hU : ∀ s ∈ U, s ∈ sides l ++ sides c) (hδ : δ ≤ M * E / 2 ^ 39)
  {k : Pt ℚ × Pt ℚ} (hk : k ∈ sides l ++ sides c) (hkU : k ∉ U) {T : List TV} (hT : Inv l U δ T)
include hM hM' hg hU hδ hk hkU hT

theorem GenPair.sign {v : TV} (hv : v ∈ T) :
    (0 < orient k.1 k.2 v.p ↔ 0 < orient k.1 k.2 v.x) ∧ (orient k.1 k.2 v.p < 0 ↔ orient k.1 k.2 v.x < 0) ∧
      orient k.1 k.2 v.x ≠ 0 ∧ 4096 * u * E ^ 2 ≤ |orient k.1 k.2 v.p| := by
  have h := hT.vtx v hv
  exact hg.vtx_sign hM hM' hU hδ h hk ⟨fun e => hkU (e ▸ h.mem_e), fun e => hkU (e ▸ h.mem_f)⟩

theorem GenPair.fins {v : TV} (hv : v ∈ T) : fins k.1 k.2 v.p = tins k v := by
  have hb := hg.vtx_bnd hM hM' hU hδ (hT.vtx v hv)
  have hm := hg.side_mem hM hM' hk
  have up : ∀ {w}, w ∈ l ++ c → |w.x| ≤ 2 * M ∧ |w.y| ≤ 2 * M := fun h => by
    have := hg.bnd _ h
    have hM0 := hg.M_pos hM hM'
    exact ⟨by linarith [this.1], by linarith [this.2]⟩
  obtain ⟨s1, _, _, s4⟩ := hg.sign hM hM' hU hδ hk hkU hT hv
  have hu := u_pos
  rw [fins_eq hM hM' (hg.E_tiny hM hM') (up hm.1) (up hm.2) hb.1 (hg.side_size hM hM' hk) (hb.2 _ hm.1)
    (le_trans (by nlinarith [mul_nonneg hu.le (sq_nonneg E)]) s4)]
  unfold tins
  exact decide_eq_decide.2 s1

/-- What is known where a side crosses the line. -/
theorem GenPair.crossing {q : TV × TV} (hq : q ∈ cyc T) (hc : tins k q.1 ≠ tins k q.2) :
    Opp k.1 k.2 q.1.x q.2.x ∧
    ((orient k.1 k.2 q.1.x < 0 ∧ 0 < orient k.1 k.2 q.2.x) ∨ (orient k.1 k.2 q.2.x < 0 ∧ 0 < orient k.1 k.2 q.1.x)) ∧
    shIntersection (fp q.1.p) ⟨(fp q.2.p).x - (fp q.1.p).x, (fp q.2.p).y - (fp q.1.p).y⟩ (fp k.1)
      ⟨-((fp k.2).y - (fp k.1).y), (fp k.2).x - (fp k.1).x⟩ = .ok (some (fp (fcut k.1 k.2 q.1.p q.2.p))) ∧
    sideCross q.1.f k ≠ 0 ∧ Vtx l (k :: U) (δ + M * E / 2 ^ 44) (tcut k q.1 q.2) := by
  have hE := hg.E_pos hM hM'
  have hM0 := hg.M_pos hM hM'
  have hm := mem_sides_mem (mem_cyc.1 hq)
  have v1 := hT.vtx _ hm.1
  have v2 := hT.vtx _ hm.2
  obtain ⟨a1, a2, a3, a4⟩ := hg.sign hM hM' hU hδ hk hkU hT hm.1
  obtain ⟨b1, b2, b3, b4⟩ := hg.sign hM hM' hU hδ hk hkU hT hm.2
  have hsg : (orient k.1 k.2 q.1.x < 0 ∧ 0 < orient k.1 k.2 q.2.x) ∨ (orient k.1 k.2 q.2.x < 0 ∧ 0 < orient k.1 k.2 q.1.x) := by
    unfold tins at hc
    rcases lt_or_gt_of_ne a3 with h | h <;> rcases lt_or_gt_of_ne b3 with h' | h'
    · rw [decide_eq_false (by linarith), decide_eq_false (by linarith)] at hc
      exact (hc rfl).elim
    · exact Or.inl ⟨h, h'⟩
    · exact Or.inr ⟨h', h⟩
    · rw [decide_eq_true h, decide_eq_true h'] at hc
      exact (hc rfl).elim
  have hopp : Opp k.1 k.2 q.1.x q.2.x := hsg.imp (fun h => ⟨h.1.le, h.2⟩) fun h => ⟨h.2, h.1.le⟩
  have hks := hg.side_mem hM hM' hk
  have up : ∀ {w}, w ∈ l ++ c → |w.x| ≤ 2 * M ∧ |w.y| ≤ 2 * M := fun h => by
    have := hg.bnd _ h
    exact ⟨by linarith [this.1], by linarith [this.2]⟩
  have w1 := hg.vtx_bnd hM hM' hU hδ v1
  have w2 := hg.vtx_bnd hM hM' hU hδ v2
  have sw : ∀ {d : ℚ} {p q : Pt ℚ}, Within d p q → Within d q p := fun h => by
    obtain ⟨h1, h2⟩ := h
    rw [abs_sub_comm] at h1 h2
    exact ⟨h1, h2⟩
  obtain ⟨f1, f2, f3, τ, t0, t1, f4, f5⟩ := fcut_spec hM hM' (hg.E_tiny hM hM') (up hks.1) (up hks.2) w1.1 w2.1
    (hg.side_size hM hM' hk) (sw (w1.2 _ hks.1)) (hg.vtx_size hM hM' hU hδ v2 v1)
    (hsg.imp (fun h => ⟨a2.2 h.1, b1.2 h.2⟩) fun h => ⟨b2.2 h.1, a1.2 h.2⟩) a4 b4
  have hlink := hT.link q hq
  have hfU := v1.mem_f
  have hf := hU _ hfU
  have onf2 : orient q.1.f.1 q.1.f.2 q.2.x = 0 := by rw [hlink.1]; exact v2.on_e
  have resf2 : |orient q.1.f.1 q.1.f.2 q.2.p| ≤ δ := by rw [hlink.1]; exact v2.res_e
  have hcr : sideCross q.1.f k ≠ 0 := by
    obtain ⟨m, e1, e2⟩ := on_line_dir (hg.side_ne hM hM' hf) v1.on_f onf2
    have := orient_dir (t := k) e1 e2
    intro h0
    rw [sideCross_swap, h0, neg_zero, mul_zero] at this
    rcases hsg with h | h <;> linarith [h.1, h.2]
  have hω : 2 * (E * (M / 2 ^ 48)) ≤ M * E / 2 ^ 47 := le_of_eq (by ring)
  have hωpos : 0 < M * E / 2 ^ 47 := by positivity
  have hω44 : M * E / 2 ^ 44 = 8 * (M * E / 2 ^ 47) := by ring
  have hline : |orient q.1.f.1 q.1.f.2 (fcut k.1 k.2 q.1.p q.2.p)| ≤ δ + M * E / 2 ^ 44 := by
    have h1 := orient_near (hg.side_size hM hM' hf) f4 hE.le
    have h2 : |orient q.1.f.1 q.1.f.2 (lineAt q.1.p q.2.p τ)| ≤ δ := by
      rw [orient_lineAt]
      refine (abs_add_le _ _).trans ?_
      rw [abs_mul, abs_mul, abs_of_nonneg t0, abs_of_nonneg (by linarith : 0 ≤ 1 - τ)]
      have m1 := mul_le_mul_of_nonneg_left v1.res_f (by linarith : 0 ≤ 1 - τ)
      have m2 := mul_le_mul_of_nonneg_left resf2 t0
      linarith
    rw [abs_le] at h1 h2 ⊢
    constructor <;> linarith [h1.1, h1.2, h2.1, h2.2]
  have hcut : |orient k.1 k.2 (fcut k.1 k.2 q.1.p q.2.p)| ≤ δ + M * E / 2 ^ 44 := by
    have h1 := orient_near (hg.side_size hM hM' hk) f4 hE.le
    have h2 : 216 * u * E ^ 2 ≤ 7 * (M * E / 2 ^ 47) := by
      have := mul_le_mul_of_nonneg_right hg.size_le hE.le
      have e1 : 216 * u * E ^ 2 = 216 * u * (E * E) := by ring
      rw [e1]
      have h3 : 216 * u * (E * E) ≤ 216 * u * (2 * M * E) := mul_le_mul_of_nonneg_left this (by have := u_pos; positivity)
      refine h3.trans ?_
      unfold u
      have : 0 < M * E := by positivity
      have e2 : 216 * (1 / 2 ^ 53) * (2 * M * E) = 432 / 2 ^ 53 * (M * E) := by ring
      have e3 : 7 * (M * E / 2 ^ 47) = 448 / 2 ^ 53 * (M * E) := by ring
      rw [e2, e3]
      exact mul_le_mul_of_nonneg_right (by norm_num) this.le
    have h0 : 0 ≤ δ := (abs_nonneg _).trans v1.res_e
    rw [abs_le] at h1 f5 ⊢
    constructor <;> linarith [h1.1, h1.2, f5.1, f5.2]
  have hx1 : orient q.1.f.1 q.1.f.2 (cutPoint k.1 k.2 q.1.x q.2.x) = 0 := by
    unfold cutPoint
    rw [orient_lineAt, v1.on_f, onf2]; ring
  have hx2 : InPoly l (cutPoint k.1 k.2 q.1.x q.2.x) := by
    obtain ⟨t, u0, u1, e⟩ := hopp.param
    rw [e]
    exact v1.inl.convex v2.inl u0 u1
  refine ⟨hopp, hsg, f1, hcr, ?_⟩
  unfold tcut
  by_cases hi : tins k q.1 = true
  · simp only [hi, if_true]
    exact ⟨List.mem_cons_of_mem _ hfU, List.mem_cons_self, hcr, hx1, hopp.on_line, hx2, ⟨f2, f3⟩, hline, hcut⟩
  · simp only [hi, Bool.false_eq_true, if_false]
    exact ⟨List.mem_cons_self, List.mem_cons_of_mem _ hfU, by rw [sideCross_swap]; simpa using hcr, hopp.on_line, hx1, hx2,
      ⟨f2, f3⟩, hcut, hline⟩

theorem GenPair.step_x : clipHalf k.1 k.2 (T.map TV.x) = (clipE (tins k) (tcut k) T).map TV.x := by
  rw [clipHalf_emit]
  refine clipE_map (fun q hq => ?_) (fun v _ => rfl) fun q hq _ => rfl
  have := (hT.link q hq).2
  exact ⟨fun e => this (by rw [e]), this⟩

theorem GenPair.step_p : clipE (Fl.fins k.1 k.2) (fcut k.1 k.2) (T.map TV.p) = (clipE (tins k) (tcut k) T).map TV.p := by
  refine clipE_map (fun q hq => ?_) (fun v hv => hg.fins hM hM' hU hδ hk hkU hT hv) fun q hq _ => rfl
  have hm := mem_sides_mem (mem_cyc.1 hq)
  have hl := hT.link q hq
  exact ⟨fun e => hl.2 (by rw [e]), hg.vtx_ne hM hM' hU hδ (hT.vtx _ hm.1) (hT.vtx _ hm.2) hl.1 hl.2⟩

/-- Clipping keeps what is known. -/
theorem GenPair.step_inv {w : TV} (hw : w ∈ T) (hin : tins k w = true) :
    Inv l (k :: U) (δ + M * E / 2 ^ 44) (clipE (tins k) (tcut k) T) := by
  have hE := hg.E_pos hM hM'
  have hM0 := hg.M_pos hM hM'
  have hpos : 0 < M * E / 2 ^ 44 := by positivity
  have hcx := hg.step_x hM hM' hU hδ hk hkU hT
  refine ⟨fun v hv => ?_, ?_, ?_⟩
  · rcases clipE_mem hv with ⟨h1, _⟩ | ⟨q, hq, h1, rfl⟩
    · have h := hT.vtx v h1
      exact ⟨List.mem_cons_of_mem _ h.mem_e, List.mem_cons_of_mem _ h.mem_f, h.crs, h.on_e, h.on_f, h.inl, h.rep,
        by linarith [h.res_e], by linarith [h.res_f]⟩
    · exact (hg.crossing hM hM' hU hδ hk hkU hT hq h1).2.2.2.2
  · refine clipE_linked (R := fun a b => a.f = b.e ∧ a.x ≠ b.x) (fun q hq e => (hT.link q hq).2 (by rw [e]))
      (fun q hq _ _ => hT.link q hq) (fun q hq i1 i2 => ?_) (fun q hq i1 i2 => ?_) (fun q hq q' hq' i1 i2 i3 i4 => ?_) hw hin
    · obtain ⟨c1, _⟩ := hg.crossing hM hM' hU hδ hk hkU hT hq (by rw [i1, i2]; simp)
      refine ⟨by simp [tcut, i1], fun e => ?_⟩
      have h1 : 0 < orient k.1 k.2 q.1.x := of_decide_eq_true i1
      rw [e] at h1
      have h2 := c1.on_line
      simp only [tcut] at h1
      rw [h2] at h1
      exact lt_irrefl _ h1
    · obtain ⟨c1, _⟩ := hg.crossing hM hM' hU hδ hk hkU hT hq (by rw [i1, i2]; simp)
      refine ⟨by simp only [tcut, i1, Bool.false_eq_true, if_false]; exact (hT.link q hq).1, fun e => ?_⟩
      have h1 : 0 < orient k.1 k.2 q.2.x := of_decide_eq_true i2
      rw [← e] at h1
      have h2 := c1.on_line
      simp only [tcut] at h1
      rw [h2] at h1
      exact lt_irrefl _ h1
    · obtain ⟨c1, c2, _, c4, c5⟩ := hg.crossing hM hM' hU hδ hk hkU hT hq (by rw [i1, i2]; simp)
      obtain ⟨d1, d2, _, d4, d5⟩ := hg.crossing hM hM' hU hδ hk hkU hT hq' (by rw [i3, i4]; simp)
      refine ⟨by simp [tcut, i1, i3], fun e => ?_⟩
      have h1 : 0 < orient k.1 k.2 q.1.x := of_decide_eq_true i1
      have h2 : 0 < orient k.1 k.2 q'.2.x := of_decide_eq_true i4
      have h3 : orient k.1 k.2 q.2.x < 0 := by
        rcases c2 with h | h
        · linarith [h.1]
        · exact h.1
      have h4 : orient k.1 k.2 q'.1.x < 0 := by
        rcases d2 with h | h
        · exact h.1
        · linarith [h.1]
      have hm := mem_sides_mem (mem_cyc.1 hq)
      have hm' := mem_sides_mem (mem_cyc.1 hq')
      have v1 := hT.vtx _ hm.1
      have v2 := hT.vtx _ hm.2
      have v1' := hT.vtx _ hm'.1
      have v2' := hT.vtx _ hm'.2
      have hl := (hT.link q hq).1
      have hl' := (hT.link q' hq').1
      by_cases hf : q.1.f = q'.1.f
      · -- two sides on one line in opposite directions
        have hne := hg.side_ne hM hM' (hU _ v1.mem_f)
        obtain ⟨m, e1, e2⟩ := on_line_dir hne v1.on_f (by rw [hl]; exact v2.on_e)
        obtain ⟨m', e1', e2'⟩ := on_line_dir hne (hf ▸ v1'.on_f) (by rw [hf, hl']; exact v2'.on_e)
        have o1 := orient_dir (t := k) e1 e2
        have o2 := orient_dir (t := k) e1' e2'
        refine hT.convex.not_collinear hne fun w hw => ?_
        have s1 : (q.1.x, q.2.x) ∈ sides (T.map TV.x) := by
          rw [← mem_cyc, cyc_map]
          exact List.mem_map_of_mem (f := Prod.map TV.x TV.x) hq
        have s2 : (q'.1.x, q'.2.x) ∈ sides (T.map TV.x) := by
          rw [← mem_cyc, cyc_map]
          exact List.mem_map_of_mem (f := Prod.map TV.x TV.x) hq'
        have g1 := hT.convex.support s1 hw
        have g2 := hT.convex.support s2 hw
        simp only at g1 g2
        rw [orient_seg e1 e2 v1.on_f] at g1
        rw [orient_seg e1' e2' (hf ▸ v1'.on_f)] at g2
        have n1 : m * sideCross k q.1.f < 0 := by linarith
        have n2 : 0 < m' * sideCross k q.1.f := by linarith
        generalize sideCross k q.1.f = D at n1 n2
        generalize orient q.1.f.1 q.1.f.2 w = O at g1 g2
        by_contra hO
        have hD : 0 < D * D := by
          have : D ≠ 0 := by rintro rfl; simp at n1
          exact mul_self_pos.2 this
        have hmm : m * m' < 0 := by
          have : (m * D) * (m' * D) < 0 := mul_neg_of_neg_of_pos n1 n2
          have e : (m * D) * (m' * D) = (m * m') * (D * D) := by ring
          rw [e] at this
          exact neg_of_mul_neg_left this hD.le
        have hOO : 0 < O * O := mul_self_pos.2 hO
        have : 0 ≤ (m * m') * (O * O) := by
          have e : (m * m') * (O * O) = (m * O) * (m' * O) := by ring
          rw [e]; exact mul_nonneg g1 g2
        nlinarith
      · have i1' : tins k q.1 = true := i1
        have hk1 : k ≠ q.1.f := fun e => hkU (e ▸ v1.mem_f)
        have hk2 : k ≠ q'.1.f := fun e => hkU (e ▸ v1'.mem_f)
        have x1 : orient q.1.f.1 q.1.f.2 (tcut k q.1 q.2).x = 0 := by
          have := c5.on_e
          simpa [tcut, i1] using this
        have x2 : orient q'.1.f.1 q'.1.f.2 (tcut k q.1 q.2).x = 0 := by
          rw [e]
          have := d5.on_f
          simpa [tcut, i3] using this
        have x3 : orient k.1 k.2 (tcut k q.1 q.2).x = 0 := c1.on_line
        have := hg.meet _ (hU _ v1.mem_f) _ hk _ (hU _ v1'.mem_f) (Ne.symm hk1) (Ne.symm hf) (Ne.symm hk2) c4 _ c5.inl x1 x3
        rw [x2, abs_zero] at this
        have : 0 < ρ * E ^ 2 := mul_pos hg.rho.1 (by positivity)
        linarith
  · rw [← hcx]
    refine clipHalf_convex hT.convex (List.mem_map_of_mem hw) ?_
    exact of_decide_eq_true hin

end

end Celltree.Fl
