import Verif.Proofs.FloatRect
import Verif.Proofs.FloatClip
import Verif.Spec.FloatRects

/-!
# Clipping of a rectangle by a rectangle in binary64
-/

set_option linter.unusedSectionVars false

namespace Celltree.Fl

/-! ## One line -/

theorem stage_cut {M : ℚ} {r s : Pt Fl} {ins : Pt ℚ → Bool} {rest : List (Pt Fl)} {l : List (Pt ℚ)} {q0 q1 q2 q3 p p' : Pt ℚ}
    (hS : Same l [q0, q1, q2, q3]) (hne : l ≠ []) (h0 : ((s.x - r.x == 0) && (s.y - r.y == 0)) = false)
    (hf : ∀ q ∈ [q0, q1, q2, q3], Fin300 q)
    (hins : ∀ q ∈ [q0, q1, q2, q3], shInside (fp q) r ⟨s.x - r.x, s.y - r.y⟩ = ins q)
    (i0 : ins q0 = false) (i1 : ins q1 = true) (i2 : ins q2 = true) (i3 : ins q3 = false)
    (hp : shIntersection (fp q0) ⟨(fp q1).x - (fp q0).x, (fp q1).y - (fp q0).y⟩ r ⟨-(s.y - r.y), s.x - r.x⟩ =
      .ok (some (fp p)))
    (hp' : shIntersection (fp q2) ⟨(fp q3).x - (fp q2).x, (fp q3).y - (fp q2).y⟩ r ⟨-(s.y - r.y), s.x - r.x⟩ =
      .ok (some (fp p'))) :
    ∃ l', Same l' [p, q1, q2, p'] ∧ shOuterLoop r (s :: rest) (l.map fp) =
      if l'.length < 3 then .ok none else shOuterLoop s rest (l'.map fp) := by
  have hS' := hS.cut (fun a _ => if a = q0 then p else p') i0 i1 i2 i3
  have e1 : (if q0 = q0 then p else p') = p := if_pos rfl
  have e2 : (if q2 = q0 then p else p') = p' := if_neg fun h => by rw [h, i0] at i2; cases i2
  simp only [e1, e2] at hS'
  refine ⟨_, hS', shOuterLoop_fl hne rfl rfl h0 (fun q hq => hf q (hS.mem q hq)) (fun q hq => hins q (hS.mem q hq)) ?_
    (hS'.len.trans (by unfold clipMaxNVertex maxNVertex; norm_num))⟩
  intro e he hi
  have he' := hS.edges.mem_iff.1 he
  have : e ∈ cyc [q0, q1, q2, q3] := (List.mem_filter.1 he').1
  simp only [cyc, List.length_cons, List.length_nil] at this
  norm_num [List.rotate] at this
  rcases this with rfl | rfl | rfl | rfl
  · rw [i0, i3] at hi; exact absurd rfl hi
  · simp only [if_true]; exact hp
  · rw [i1, i2] at hi; exact absurd rfl hi
  · simp only [e2]; exact hp'

theorem stage_same {M : ℚ} {r s : Pt Fl} {ins : Pt ℚ → Bool} {rest : List (Pt Fl)} {l : List (Pt ℚ)} {q0 q1 q2 q3 : Pt ℚ}
    {v : Bool} (hS : Same l [q0, q1, q2, q3]) (hne : l ≠ []) (h0 : ((s.x - r.x == 0) && (s.y - r.y == 0)) = false)
    (hf : ∀ q ∈ [q0, q1, q2, q3], Fin300 q)
    (hins : ∀ q ∈ [q0, q1, q2, q3], shInside (fp q) r ⟨s.x - r.x, s.y - r.y⟩ = ins q)
    (i0 : ins q0 = v) (i1 : ins q1 = v) (i2 : ins q2 = v) (i3 : ins q3 = v) :
    ∃ l', (v = true → Same l' [q0, q1, q2, q3]) ∧ (v = false → l' = []) ∧ shOuterLoop r (s :: rest) (l.map fp) =
      if l'.length < 3 then .ok none else shOuterLoop s rest (l'.map fp) := by
  have hv : (v = true → Same (clipE ins (fun a _ => a) l) [q0, q1, q2, q3]) ∧ (v = false → clipE ins (fun a _ => a) l = []) := by
    refine ⟨fun h => ?_, fun h => ?_⟩
    · subst h; exact hS.keep _ i0 i1 i2 i3
    · subst h; exact hS.drop _ i0 i1 i2 i3
  refine ⟨clipE ins (fun a _ => a) l, hv.1, hv.2, shOuterLoop_fl hne rfl rfl h0 (fun q hq => hf q (hS.mem q hq))
    (fun q hq => hins q (hS.mem q hq)) ?_ ?_⟩
  · intro e he hi
    have he' := hS.edges.mem_iff.1 he
    have : e ∈ cyc [q0, q1, q2, q3] := (List.mem_filter.1 he').1
    simp only [cyc, List.length_cons, List.length_nil] at this
    norm_num [List.rotate] at this
    rcases this with rfl | rfl | rfl | rfl <;> simp only [i0, i1, i2, i3, ne_eq, not_true_eq_false] at hi
  · cases v
    · rw [hv.2 rfl]; simp
    · exact (hv.1 rfl).len.trans (by unfold clipMaxNVertex maxNVertex; norm_num)

/-! ## Sides -/

/-- The coordinate of two corners across a side of the rectangle. The side was at `o`, and `c` is where the other rectangle has
its side; `σ` gives the inner side. If the line at `c` has not been used, or has cut off nothing, the corners are where
they were; otherwise they are within `δ` of the line. -/
def Side (σ o c δ : ℚ) (done : Bool) (p q : ℚ) : Prop :=
  (p = o ∧ q = o ∧ (done = true → σ * c < σ * o)) ∨ (done = true ∧ σ * o ≤ σ * c ∧ |p - c| ≤ δ ∧ |q - c| ≤ δ)

theorem Side.swap {σ o c δ p q : ℚ} {done : Bool} (h : Side σ o c δ done p q) : Side σ o c δ done q p :=
  h.imp (fun h => ⟨h.2.1, h.1, h.2.2⟩) fun h => ⟨h.1, h.2.1, h.2.2.2, h.2.2.1⟩

theorem Side.mono {σ o c δ δ' p q : ℚ} {done : Bool} (h : Side σ o c δ done p q) (hd : δ ≤ δ') : Side σ o c δ' done p q :=
  h.imp id fun h => ⟨h.1, h.2.1, h.2.2.1.trans hd, h.2.2.2.trans hd⟩

theorem Side.bound {M σ o c δ p q : ℚ} {done : Bool} (h : Side σ o c δ done p q) (ho : |o| ≤ M) (hc : |c| ≤ M) (hd : δ ≤ M) :
    |p| ≤ 2 * M ∧ |q| ≤ 2 * M := by
  have hM0 : 0 ≤ M := (abs_nonneg _).trans ho
  rcases h with ⟨rfl, rfl, _⟩ | ⟨_, _, h1, h2⟩
  · exact ⟨by linarith, by linarith⟩
  · rw [abs_le] at h1 h2 hc
    constructor <;> rw [abs_le] <;> constructor <;> linarith [h1.1, h1.2, h2.1, h2.2, hc.1, hc.2]

theorem le_abs_of_sign {σ x v : ℚ} (hσ : σ = 1 ∨ σ = -1) (h : v ≤ σ * x) : v ≤ |x| := by
  rcases hσ with rfl | rfl
  · exact (by linarith : v ≤ x).trans (le_abs_self x)
  · exact (by linarith : v ≤ -x).trans (neg_le_abs x)

theorem sign_near {σ x c δ : ℚ} (hσ : σ = 1 ∨ σ = -1) (h : |x - c| ≤ δ) : σ * c - δ ≤ σ * x ∧ σ * x ≤ σ * c + δ := by
  rw [abs_le] at h
  rcases hσ with rfl | rfl <;> constructor <;> linarith [h.1, h.2]

theorem between_sign {σ a b c : ℚ} (hσ : σ = 1 ∨ σ = -1) (h1 : σ * a ≤ σ * c) (h2 : σ * c ≤ σ * b) :
    (a ≤ c ∧ c ≤ b) ∨ (b ≤ c ∧ c ≤ a) := by
  rcases hσ with rfl | rfl
  · exact Or.inl ⟨by linarith, by linarith⟩
  · exact Or.inr ⟨by linarith, by linarith⟩

/-- Clipping by one side. -/
theorem stage {M : ℚ} (hM : 1 / 2 ^ 100 ≤ M) (hM' : M ≤ 2 ^ 198) {r s : Pt Fl} {m k : Pt ℚ → ℚ} {σ c o o' c' σA oA cA σB oB cB δ : ℚ}
    {d' dA dB : Bool} {rest : List (Pt Fl)} {l : List (Pt ℚ)} {q0 q1 q2 q3 : Pt ℚ}
    (L : LineOk M r s m k σ c) (hσ : σ = 1 ∨ σ = -1) (hcrd : ∀ B p, Crd B p ↔ (IsRep (m p) ∧ |m p| ≤ B) ∧ IsRep (k p) ∧ |k p| ≤ B)
    (hS : Same l [q0, q1, q2, q3]) (hne : l ≠ []) (hrep : ∀ q ∈ [q0, q1, q2, q3], IsRep (m q) ∧ IsRep (k q))
    (near : Side σ o c δ false (m q0) (m q3)) (far : Side (-σ) o' c' δ d' (m q1) (m q2))
    (sA : Side σA oA cA δ dA (k q0) (k q1)) (sB : Side σB oB cB δ dB (k q2) (k q3))
    (uo : Usual M o) (uc : Usual M c) (uo' : Usual M o') (bc' : |c'| ≤ M) (boA : |oA| ≤ M) (bcA : |cA| ≤ M) (boB : |oB| ≤ M)
    (bcB : |cB| ≤ M) (hδ : M / 2 ^ 46 + M / 2 ^ 48 ≤ δ) (hδ' : δ ≤ M / 2 ^ 44) (g1 : σ * o + M / 2 ^ 42 ≤ σ * o')
    (g2 : σ * c + M / 2 ^ 42 ≤ σ * c') :
    (σ * o' ≤ σ * c ∧ shOuterLoop r (s :: rest) (l.map fp) = .ok none) ∨
    σ * c < σ * o' ∧ ∃ l' q0' q3', Same l' [q0', q1, q2, q3'] ∧ (∀ q ∈ [q0', q1, q2, q3'], IsRep (m q) ∧ IsRep (k q)) ∧
      Side σ o c (δ + M / 2 ^ 48) true (m q0') (m q3') ∧ Side σA oA cA (δ + M / 2 ^ 48) dA (k q0') (k q1) ∧
      Side σB oB cB (δ + M / 2 ^ 48) dB (k q2) (k q3') ∧ shOuterLoop r (s :: rest) (l.map fp) =
        if l'.length < 3 then .ok none else shOuterLoop s rest (l'.map fp) := by
  have hM0 : 0 < M := lt_of_lt_of_le (by positivity) hM
  have hσ' : -σ = 1 ∨ -σ = -1 := by rcases hσ with rfl | rfl <;> simp
  have hδM : δ ≤ M := hδ'.trans (div_le_self hM0.le (by norm_num))
  have hsm : M / 2 ^ 44 ≤ M / 2 ^ 42 / 2 := by
    rw [div_div]
    exact div_le_div_of_nonneg_left hM0.le (by norm_num) (by norm_num)
  have hst : δ ≤ δ + M / 2 ^ 48 := le_add_of_nonneg_right (by positivity)
  have hG : 1 / 2 ^ 250 ≤ M / 2 ^ 42 / 2 := by
    have h1 : (1 : ℚ) / 2 ^ 250 ≤ 1 / 2 ^ 100 * (1 / 2 ^ 42 / 2) := by
      rw [div_div, div_mul_div_comm, mul_one, ← pow_succ, ← pow_add]
      exact inv_pow_le (by norm_num)
    refine h1.trans ?_
    rw [div_eq_mul_one_div M, mul_div_assoc]
    exact mul_le_mul_of_nonneg_right hM (by positivity)
  -- where the corners are
  obtain ⟨n0, n3⟩ : m q0 = o ∧ m q3 = o := by
    rcases near with h | h
    · exact ⟨h.1, h.2.1⟩
    · cases h.1
  have bf := far.bound uo'.2.1 bc' hδM
  have bA := sA.bound boA bcA hδM
  have bB := sB.bound boB bcB hδM
  have bo : |o| ≤ 2 * M := uo.2.1.trans (by linarith)
  have crd : ∀ q ∈ [q0, q1, q2, q3], Crd (2 * M) q := by
    intro q hq
    have hr := hrep q hq
    rw [hcrd]
    simp only [List.mem_cons, List.not_mem_nil, or_false] at hq
    rcases hq with rfl | rfl | rfl | rfl
    · exact ⟨⟨hr.1, by rw [n0]; exact bo⟩, hr.2, bA.1⟩
    · exact ⟨⟨hr.1, bf.1⟩, hr.2, bA.2⟩
    · exact ⟨⟨hr.1, bf.2⟩, hr.2, bB.1⟩
    · exact ⟨⟨hr.1, by rw [n3]; exact bo⟩, hr.2, bB.2⟩
  have h300 : (2 : ℚ) * M ≤ 2 ^ 300 := (two_M hM hM').2.trans (pow_le_pow_right₀ (by norm_num) (by norm_num))
  have hf : ∀ q ∈ [q0, q1, q2, q3], Fin300 q := fun q hq =>
    ⟨⟨(crd q hq).1.1, (crd q hq).1.2.trans h300⟩, (crd q hq).2.1, (crd q hq).2.2.trans h300⟩
  have apart : ∀ {x : ℚ}, Usual M x → x = c ∨ 1 / 2 ^ 250 ≤ |x - c| := by
    intro x hx
    rcases lt_trichotomy x c with h | h | h
    · right
      have := hx.apart uc h
      rw [abs_sub_comm, abs_of_pos (by linarith)]
      exact (inv_pow_le (by norm_num)).trans this
    · exact Or.inl h
    · right
      have := uc.apart hx h
      rw [abs_of_pos (by linarith)]
      exact (inv_pow_le (by norm_num)).trans this
  have farq : ∀ x, (x = m q1 ∨ x = m q2) → (x = c ∨ 1 / 2 ^ 250 ≤ |x - c|) ∧
      ((σ * o' ≤ σ * c ∧ d' = d') ∧ σ * x ≤ σ * c ∧ (m q1 = o' ∧ m q2 = o') ∨
        σ * c < σ * x ∧ (σ * o ≤ σ * c → 1 / 2 ^ 250 ≤ |x - o|) ∧ ((m q1 = o' ∧ m q2 = o' ∧ σ * c < σ * o') ∨
          (σ * c' ≤ σ * o' ∧ |m q1 - c'| ≤ δ ∧ |m q2 - c'| ≤ δ))) := by
    intro x hx
    rcases far with ⟨f1, f2, _⟩ | ⟨_, f0, f1, f2⟩
    · have hxo : x = o' := by rcases hx with h | h <;> rw [h] <;> assumption
      subst hxo
      refine ⟨apart uo', ?_⟩
      rcases le_or_gt (σ * x) (σ * c) with h | h
      · exact Or.inl ⟨⟨h, rfl⟩, h, f1, f2⟩
      · refine Or.inr ⟨h, fun _ => ?_, Or.inl ⟨f1, f2, h⟩⟩
        refine hG.trans (le_abs_of_sign hσ ?_)
        rw [mul_sub]; linarith [show 0 < M / 2 ^ 42 by positivity]
    · have hx' : |x - c'| ≤ δ := by rcases hx with h | h <;> rw [h] <;> assumption
      have hn := sign_near hσ hx'
      refine ⟨Or.inr (hG.trans (le_abs_of_sign hσ ?_)), Or.inr ⟨?_, fun h => hG.trans (le_abs_of_sign hσ ?_),
        Or.inr ⟨by rw [neg_mul, neg_mul] at f0; linarith, f1, f2⟩⟩⟩
      · rw [mul_sub]; linarith [hn.1]
      · linarith [hn.1, show 0 < M / 2 ^ 42 by positivity]
      · rw [mul_sub]; linarith [hn.1]
  have hins : ∀ q ∈ [q0, q1, q2, q3], shInside (fp q) r ⟨s.x - r.x, s.y - r.y⟩ = decide (0 < σ * (m q - c)) := by
    intro q hq
    refine L.inside q (crd q hq) ?_
    simp only [List.mem_cons, List.not_mem_nil, or_false] at hq
    rcases hq with rfl | rfl | rfl | rfl
    · rw [n0]; exact apart uo
    · exact (farq _ (Or.inl rfl)).1
    · exact (farq _ (Or.inr rfl)).1
    · rw [n3]; exact apart uo
  rcases lt_or_ge (σ * c) (σ * o) with h | h
  · -- nothing is cut off
    right
    have fin' : ∀ x, (x = m q1 ∨ x = m q2) → 0 < σ * (x - c) := by
      intro x hx
      rw [mul_sub]
      rcases (farq x hx).2 with ⟨⟨h1, _⟩, _⟩ | ⟨h1, _⟩
      · linarith [show 0 < M / 2 ^ 42 by positivity]
      · linarith
    obtain ⟨l', h1, _, h2⟩ := stage_same (M := M) (rest := rest) (v := true) hS hne L.dir hf hins
      (by rw [n0, mul_sub]; exact decide_eq_true (by linarith)) (decide_eq_true (fin' _ (Or.inl rfl)))
      (decide_eq_true (fin' _ (Or.inr rfl))) (by rw [n3, mul_sub]; exact decide_eq_true (by linarith))
    exact ⟨by linarith [show 0 < M / 2 ^ 42 by positivity], l', q0, q3, h1 rfl, hrep, Or.inl ⟨n0, n3, fun _ => h⟩, sA.mono hst, sB.mono hst, h2⟩
  · have out0 : decide (0 < σ * (o - c)) = false := decide_eq_false (by rw [mul_sub]; linarith)
    obtain ⟨fa, fb⟩ := farq _ (Or.inl rfl)
    obtain ⟨fa', fb'⟩ := farq _ (Or.inr rfl)
    rcases fb with ⟨⟨h1, _⟩, _, f1, f2⟩ | ⟨h1, d1, h2⟩
    · -- everything is cut off
      left
      refine ⟨h1, ?_⟩
      have out1 : decide (0 < σ * (o' - c)) = false := decide_eq_false (by rw [mul_sub]; linarith)
      obtain ⟨l', _, h3, h4⟩ := stage_same (M := M) (rest := rest) (v := false) hS hne L.dir hf hins
        (by rw [n0]; exact out0) (by rw [f1]; exact out1) (by rw [f2]; exact out1) (by rw [n3]; exact out0)
      rw [h4, h3 rfl]; rfl
    · -- a part is cut off
      right
      have d2 : σ * c < σ * m q2 ∧ (σ * o ≤ σ * c → 1 / 2 ^ 250 ≤ |m q2 - o|) := by
        rcases fb' with ⟨_, hb, f1, f2⟩ | ⟨hb, hb', _⟩
        · exfalso; rw [f1] at h1; rw [f2] at hb; linarith
        · exact ⟨hb, hb'⟩
      obtain ⟨p, p1, p2, p3, p4, p5, p6⟩ := L.cut q0 q1 (crd _ (by simp)) (crd _ (by simp))
        (between_sign hσ (by rw [n0]; exact h) h1.le) (by rw [n0]; exact d1 h)
      obtain ⟨p', p1', p2', p3', p4', p5', p6'⟩ := L.cut q2 q3 (crd _ (by simp)) (crd _ (by simp))
        (Or.symm (between_sign hσ (a := m q3) (by rw [n3]; exact h) d2.1.le)) (by rw [n3, abs_sub_comm]; exact d2.2 h)
      obtain ⟨l', h3, h4⟩ := stage_cut (M := M) (rest := rest) hS hne L.dir hf hins
        (by rw [n0]; exact out0) (decide_eq_true (by rw [mul_sub]; linarith)) (decide_eq_true (by rw [mul_sub]; linarith [d2.1]))
        (by rw [n3]; exact out0) p1 p1'
      refine ⟨?_, l', p, p', h3, ?_, Or.inr ⟨rfl, h, ?_, ?_⟩, ?_, ?_, h4⟩
      · rcases h2 with h2 | h2
        · exact h2.2.2
        · linarith [h2.1, show 0 < M / 2 ^ 42 by positivity]
      · intro q hq
        have hpp : ∀ z : Pt ℚ, IsRep z.x → IsRep z.y → IsRep (m z) ∧ IsRep (k z) := by
          intro z zx zy
          have : Crd (max |z.x| |z.y|) z := ⟨⟨zx, le_max_left _ _⟩, zy, le_max_right _ _⟩
          rw [hcrd] at this
          exact ⟨this.1.1, this.2.1⟩
        simp only [List.mem_cons, List.not_mem_nil, or_false] at hq
        rcases hq with rfl | rfl | rfl | rfl
        · exact hpp _ p2 p3
        · exact hrep _ (by simp)
        · exact hrep _ (by simp)
        · exact hpp _ p2' p3'
      · exact p4.trans (hδ.trans hst)
      · exact p4'.trans (hδ.trans hst)
      · rcases sA with ⟨a1, a2, a3⟩ | ⟨a0, a1, a2, a3⟩
        · exact Or.inl ⟨by rw [p5 (a1.trans a2.symm), a1], a2, a3⟩
        · exact Or.inr ⟨a0, a1, p6 _ _ a2 a3, a3.trans hst⟩
      · rcases sB with ⟨a1, a2, a3⟩ | ⟨a0, a1, a2, a3⟩
        · exact Or.inl ⟨a1, by rw [p5' (a1.trans a2.symm), a1], a3⟩
        · exact Or.inr ⟨a0, a1, a2.trans hst, p6' _ _ a2 a3⟩

/-! ## Four sides -/

/-- The corners of the clipped rectangle, after some of the four lines. -/
structure State (a c : Box ℚ) (δ : ℚ) (dl db dr dt : Bool) (l : List (Pt ℚ)) (LL LR UR UL : Pt ℚ) : Prop where
  same : Same l [LL, LR, UR, UL]
  rep : ∀ q ∈ [LL, LR, UR, UL], IsRep q.x ∧ IsRep q.y
  left : Side 1 a.xmin c.xmin δ dl LL.x UL.x
  right : Side (-1) a.xmax c.xmax δ dr LR.x UR.x
  bottom : Side 1 a.ymin c.ymin δ db LL.y LR.y
  top : Side (-1) a.ymax c.ymax δ dt UR.y UL.y
  pl : dl = true → c.xmin < a.xmax
  pr : dr = true → a.xmin < c.xmax
  pb : db = true → c.ymin < a.ymax
  pt : dt = true → a.ymin < c.ymax

/-- The outcome of clipping. -/
def Outcome (M : ℚ) (a c : Box ℚ) (res : Celltree.M (Option (List (Pt Fl)))) : Prop :=
  (res = .ok none ∧ (commonX a c ≤ M / 2 ^ 43 ∨ commonY a c ≤ M / 2 ^ 43)) ∨
    ∃ l δ LL LR UR UL, res = .ok (some (l.map fp)) ∧ 3 ≤ l.length ∧ 0 < δ ∧ 1 / 2 ^ 300 ≤ δ ∧ δ ≤ M / 2 ^ 44 ∧
      State a c δ true true true true l LL LR UR UL

section
variable {M : ℚ} {a c : Box ℚ} {δ : ℚ} {dl db dr dt : Bool} {l : List (Pt ℚ)} {LL LR UR UL : Pt ℚ}

theorem Side.upper {o c δ p q : ℚ} {done : Bool} (h : Side 1 o c δ done p q) (hδ : 0 ≤ δ) :
    p ≤ max o c + δ ∧ q ≤ max o c + δ := by
  have h1 := le_max_left o c
  have h2 := le_max_right o c
  rcases h with ⟨rfl, rfl, _⟩ | ⟨_, _, h3, h4⟩
  · exact ⟨by linarith, by linarith⟩
  · rw [abs_le] at h3 h4
    exact ⟨by linarith [h3.2], by linarith [h4.2]⟩

theorem Side.lower {o c δ p q : ℚ} {done : Bool} (h : Side (-1) o c δ done p q) (hδ : 0 ≤ δ) :
    min o c - δ ≤ p ∧ min o c - δ ≤ q := by
  have h1 := min_le_left o c
  have h2 := min_le_right o c
  rcases h with ⟨rfl, rfl, _⟩ | ⟨_, _, h3, h4⟩
  · exact ⟨by linarith, by linarith⟩
  · rw [abs_le] at h3 h4
    exact ⟨by linarith [h3.1], by linarith [h4.1]⟩

/-- If corners coincide, the rectangles have almost nothing in common. -/
theorem State.thin (h : State a c δ dl db dr dt l LL LR UR UL) (hδ : 0 ≤ δ) (hl : l.length < 3) :
    commonX a c ≤ 2 * δ ∨ commonY a c ≤ 2 * δ := by
  have hx : ∀ p q : ℚ, p ≤ max a.xmin c.xmin + δ → min a.xmax c.xmax - δ ≤ q → p = q → commonX a c ≤ 2 * δ := by
    intro p q h1 h2 h3
    exact max_le (by linarith) (by linarith)
  have hy : ∀ p q : ℚ, p ≤ max a.ymin c.ymin + δ → min a.ymax c.ymax - δ ≤ q → p = q → commonY a c ≤ 2 * δ := by
    intro p q h1 h2 h3
    exact max_le (by linarith) (by linarith)
  by_contra hno
  push Not at hno
  have n1 : LL ≠ LR := fun e => absurd (hx _ _ (h.left.upper hδ).1 (h.right.lower hδ).1 (by rw [e])) (not_le.2 hno.1)
  have n2 : LR ≠ UR := fun e => absurd (hy _ _ (h.bottom.upper hδ).2 (h.top.lower hδ).1 (by rw [e])) (not_le.2 hno.2)
  have n3 : UR ≠ UL := fun e => absurd (hx _ _ (h.left.upper hδ).2 (h.right.lower hδ).2 (by rw [e])) (not_le.2 hno.1)
  have n4 : UL ≠ LL := fun e => absurd (hy _ _ (h.bottom.upper hδ).1 (h.top.lower hδ).2 (by rw [e])) (not_le.2 hno.2)
  have := (h.same.all n1 n2 n3 n4).perm.length_eq
  rw [this] at hl
  simp at hl

variable (hM : 1 / 2 ^ 100 ≤ M) (hM' : M ≤ 2 ^ 198) (ha : GoodRect M a) (hc : GoodRect M c)
include hM hM' ha hc

theorem finish {r s : Pt Fl} {rest : List (Pt Fl)} {l' : List (Pt ℚ)} {res : Celltree.M (Option (List (Pt Fl)))}
    {dl db dr dt : Bool} {δ : ℚ} {LL LR UR UL : Pt ℚ} (h0 : 0 ≤ δ) (hδ : δ ≤ M / 2 ^ 44)
    (hst : State a c δ dl db dr dt l' LL LR UR UL)
    (e : res = if l'.length < 3 then .ok none else shOuterLoop s rest (l'.map fp))
    (next : 3 ≤ l'.length → Outcome M a c (shOuterLoop s rest (l'.map fp))) : Outcome M a c res := by
  rw [e]
  split
  · rename_i hl
    refine Or.inl ⟨rfl, ?_⟩
    have : 2 * δ ≤ M / 2 ^ 43 := by
      have : M / 2 ^ 43 = 2 * (M / 2 ^ 44) := by ring
      linarith
    exact (hst.thin h0 hl).imp (fun h => h.trans this) fun h => h.trans this
  · exact next (by omega)

theorem empty_x {x : ℚ} (h : a.xmax ≤ c.xmin ∨ c.xmax ≤ a.xmin) : commonX a c ≤ M / 2 ^ 43 := by
  have hM0 : 0 < M := lt_of_lt_of_le (by positivity) hM
  have h0 : 0 ≤ M / 2 ^ 43 := by positivity
  refine max_le h0 (le_trans ?_ h0)
  have h1 := min_le_left a.xmax c.xmax
  have h2 := min_le_right a.xmax c.xmax
  have h3 := le_max_left a.xmin c.xmin
  have h4 := le_max_right a.xmin c.xmin
  rcases h with h | h <;> linarith

theorem empty_y {x : ℚ} (h : a.ymax ≤ c.ymin ∨ c.ymax ≤ a.ymin) : commonY a c ≤ M / 2 ^ 43 := by
  have hM0 : 0 < M := lt_of_lt_of_le (by positivity) hM
  have h0 : 0 ≤ M / 2 ^ 43 := by positivity
  refine max_le h0 (le_trans ?_ h0)
  have h1 := min_le_left a.ymax c.ymax
  have h2 := min_le_right a.ymax c.ymax
  have h3 := le_max_left a.ymin c.ymin
  have h4 := le_max_right a.ymin c.ymin
  rcases h with h | h <;> linarith

theorem usual_crd {x y : ℚ} (hx : Usual M x) (hy : Usual M y) : Crd M ⟨x, y⟩ := ⟨⟨hx.1, hx.2.1⟩, hy.1, hy.2.1⟩

theorem gap_small {x y : ℚ} (h : x + M / 2 ^ 42 ≤ y) : x < y ∧ 1 / 2 ^ 200 ≤ y - x := by
  have hM0 : 0 < M := lt_of_lt_of_le (by positivity) hM
  have h0 : 0 < M / 2 ^ 42 := by positivity
  have h1 : (1 : ℚ) / 2 ^ 200 ≤ M / 2 ^ 42 := by
    have h1 : (1 : ℚ) / 2 ^ 200 ≤ 1 / 2 ^ 100 * (1 / 2 ^ 42) := by
      rw [div_mul_div_comm, mul_one, ← pow_add]
      exact inv_pow_le (by norm_num)
    refine h1.trans ?_
    rw [div_eq_mul_one_div M]
    exact mul_le_mul_of_nonneg_right hM (by positivity)
  exact ⟨by linarith, by linarith⟩

theorem step_left {rest : List (Pt Fl)} (hst : State a c δ false db dr dt l LL LR UR UL) (hl : 3 ≤ l.length)
    (hδ : M / 2 ^ 46 + M / 2 ^ 48 ≤ δ) (hδ' : δ + M / 2 ^ 48 ≤ M / 2 ^ 44)
    (next : ∀ l' LL UL, State a c (δ + M / 2 ^ 48) true db dr dt l' LL LR UR UL → 3 ≤ l'.length →
      Outcome M a c (shOuterLoop (fp ⟨c.xmin, c.ymin⟩) rest (l'.map fp))) :
    Outcome M a c (shOuterLoop (fp ⟨c.xmin, c.ymax⟩) (fp ⟨c.xmin, c.ymin⟩ :: rest) (l.map fp)) := by
  have hM0 : 0 < M := lt_of_lt_of_le (by positivity) hM
  have hst0 : δ ≤ δ + M / 2 ^ 48 := le_add_of_nonneg_right (by positivity)
  have hδ0 : 0 ≤ δ := le_trans (by positivity) hδ
  have hne : l ≠ [] := fun e => by rw [e] at hl; simp at hl
  obtain ⟨g1, g2⟩ := gap_small hM hM' ha hc hc.high
  have L := lineOk_x hM hM' (r := ⟨c.xmin, c.ymax⟩) (s := ⟨c.xmin, c.ymin⟩) (σ := 1) (c := c.xmin)
    (usual_crd hM hM' ha hc hc.usual.xmin hc.usual.ymax) (usual_crd hM hM' ha hc hc.usual.xmin hc.usual.ymin) rfl rfl
    (by simp only; rw [abs_sub_comm, abs_of_pos (by linarith)]; exact g2) (Or.inl ⟨rfl, g1⟩)
  rcases stage hM hM' (rest := rest) L (Or.inl rfl) (fun B p => Iff.rfl) hst.same hne hst.rep hst.left hst.right hst.bottom hst.top
    ha.usual.xmin hc.usual.xmin ha.usual.xmax hc.usual.xmax.2.1 ha.usual.ymin.2.1 hc.usual.ymin.2.1 ha.usual.ymax.2.1
    hc.usual.ymax.2.1 hδ (by linarith) (by linarith [ha.wide]) (by linarith [hc.wide]) with
    ⟨h1, h2⟩ | ⟨h0, l', q0, q3, h1, h2, h3, h4, h5, h6⟩
  · exact Or.inl ⟨h2, Or.inl (empty_x hM hM' ha hc (x := 0) (Or.inl (by linarith)))⟩
  · have hs' : State a c (δ + M / 2 ^ 48) true db dr dt l' q0 LR UR q3 :=
      ⟨h1, h2, h3, hst.right.mono hst0, h4, h5, fun _ => by linarith, hst.pr, hst.pb, hst.pt⟩
    exact finish hM hM' ha hc (r := fp ⟨0, 0⟩) (by linarith) hδ' hs' h6 fun hl' => next l' q0 q3 hs' hl'

theorem step_bottom {rest : List (Pt Fl)} (hst : State a c δ dl false dr dt l LL LR UR UL) (hl : 3 ≤ l.length)
    (hδ : M / 2 ^ 46 + M / 2 ^ 48 ≤ δ) (hδ' : δ + M / 2 ^ 48 ≤ M / 2 ^ 44)
    (next : ∀ l' LL LR, State a c (δ + M / 2 ^ 48) dl true dr dt l' LL LR UR UL → 3 ≤ l'.length →
      Outcome M a c (shOuterLoop (fp ⟨c.xmax, c.ymin⟩) rest (l'.map fp))) :
    Outcome M a c (shOuterLoop (fp ⟨c.xmin, c.ymin⟩) (fp ⟨c.xmax, c.ymin⟩ :: rest) (l.map fp)) := by
  have hM0 : 0 < M := lt_of_lt_of_le (by positivity) hM
  have hst0 : δ ≤ δ + M / 2 ^ 48 := le_add_of_nonneg_right (by positivity)
  have hδ0 : 0 ≤ δ := le_trans (by positivity) hδ
  have hne : l ≠ [] := fun e => by rw [e] at hl; simp at hl
  obtain ⟨g1, g2⟩ := gap_small hM hM' ha hc hc.wide
  have L := lineOk_y hM hM' (r := ⟨c.xmin, c.ymin⟩) (s := ⟨c.xmax, c.ymin⟩) (σ := 1) (c := c.ymin)
    (usual_crd hM hM' ha hc hc.usual.xmin hc.usual.ymin) (usual_crd hM hM' ha hc hc.usual.xmax hc.usual.ymin) rfl rfl
    (by simp only; rw [abs_of_pos (by linarith)]; exact g2) (Or.inl ⟨rfl, g1⟩)
  have hr : [LL, LR, UR, UL] ~r [LR, UR, UL, LL] := ⟨1, rfl⟩
  rcases stage hM hM' (rest := rest) L (Or.inl rfl) (fun B p => and_comm) (hst.same.rotated hr) hne
    (fun q hq => (hst.rep q (hr.mem_iff.2 hq)).symm) hst.bottom.swap hst.top hst.right hst.left.swap
    ha.usual.ymin hc.usual.ymin ha.usual.ymax hc.usual.ymax.2.1 ha.usual.xmax.2.1 hc.usual.xmax.2.1 ha.usual.xmin.2.1
    hc.usual.xmin.2.1 hδ (by linarith) (by linarith [ha.high]) (by linarith [hc.high]) with
    ⟨h1, h2⟩ | ⟨h0, l', q0, q3, h1, h2, h3, h4, h5, h6⟩
  · exact Or.inl ⟨h2, Or.inr (empty_y hM hM' ha hc (x := 0) (Or.inl (by linarith)))⟩
  · have hr' : [q0, UR, UL, q3] ~r [q3, q0, UR, UL] := ⟨3, rfl⟩
    have hs' : State a c (δ + M / 2 ^ 48) dl true dr dt l' q3 q0 UR UL :=
      ⟨h1.rotated hr', fun q hq => (h2 q (hr'.mem_iff.2 hq)).symm, h5.swap, h4, h3.swap, hst.top.mono hst0, hst.pl, hst.pr,
        fun _ => by linarith, hst.pt⟩
    exact finish hM hM' ha hc (r := fp ⟨0, 0⟩) (by linarith) hδ' hs' h6 fun hl' => next l' q3 q0 hs' hl'

theorem step_right {rest : List (Pt Fl)} (hst : State a c δ dl db false dt l LL LR UR UL) (hl : 3 ≤ l.length)
    (hδ : M / 2 ^ 46 + M / 2 ^ 48 ≤ δ) (hδ' : δ + M / 2 ^ 48 ≤ M / 2 ^ 44)
    (next : ∀ l' LR UR, State a c (δ + M / 2 ^ 48) dl db true dt l' LL LR UR UL → 3 ≤ l'.length →
      Outcome M a c (shOuterLoop (fp ⟨c.xmax, c.ymax⟩) rest (l'.map fp))) :
    Outcome M a c (shOuterLoop (fp ⟨c.xmax, c.ymin⟩) (fp ⟨c.xmax, c.ymax⟩ :: rest) (l.map fp)) := by
  have hM0 : 0 < M := lt_of_lt_of_le (by positivity) hM
  have hst0 : δ ≤ δ + M / 2 ^ 48 := le_add_of_nonneg_right (by positivity)
  have hδ0 : 0 ≤ δ := le_trans (by positivity) hδ
  have hne : l ≠ [] := fun e => by rw [e] at hl; simp at hl
  obtain ⟨g1, g2⟩ := gap_small hM hM' ha hc hc.high
  have L := lineOk_x hM hM' (r := ⟨c.xmax, c.ymin⟩) (s := ⟨c.xmax, c.ymax⟩) (σ := -1) (c := c.xmax)
    (usual_crd hM hM' ha hc hc.usual.xmax hc.usual.ymin) (usual_crd hM hM' ha hc hc.usual.xmax hc.usual.ymax) rfl rfl
    (by simp only; rw [abs_of_pos (by linarith)]; exact g2) (Or.inr ⟨rfl, g1⟩)
  have hr : [LL, LR, UR, UL] ~r [UR, UL, LL, LR] := ⟨2, rfl⟩
  rcases stage hM hM' (rest := rest) L (Or.inr rfl) (fun B p => Iff.rfl) (hst.same.rotated hr) hne
    (fun q hq => hst.rep q (hr.mem_iff.2 hq)) hst.right.swap (by rw [neg_neg]; exact hst.left.swap) hst.top hst.bottom
    ha.usual.xmax hc.usual.xmax ha.usual.xmin hc.usual.xmin.2.1 ha.usual.ymax.2.1 hc.usual.ymax.2.1 ha.usual.ymin.2.1
    hc.usual.ymin.2.1 hδ (by linarith) (by linarith [ha.wide]) (by linarith [hc.wide]) with
    ⟨h1, h2⟩ | ⟨h0, l', q0, q3, h1, h2, h3, h4, h5, h6⟩
  · exact Or.inl ⟨h2, Or.inl (empty_x hM hM' ha hc (x := 0) (Or.inr (by linarith)))⟩
  · have hr' : [q0, UL, LL, q3] ~r [LL, q3, q0, UL] := ⟨2, rfl⟩
    have hs' : State a c (δ + M / 2 ^ 48) dl db true dt l' LL q3 q0 UL :=
      ⟨h1.rotated hr', fun q hq => h2 q (hr'.mem_iff.2 hq), hst.left.mono hst0, h3.swap, h5, h4, hst.pl,
        fun _ => by linarith, hst.pb, hst.pt⟩
    exact finish hM hM' ha hc (r := fp ⟨0, 0⟩) (by linarith) hδ' hs' h6 fun hl' => next l' q3 q0 hs' hl'

theorem step_top {rest : List (Pt Fl)} (hst : State a c δ dl db dr false l LL LR UR UL) (hl : 3 ≤ l.length)
    (hδ : M / 2 ^ 46 + M / 2 ^ 48 ≤ δ) (hδ' : δ + M / 2 ^ 48 ≤ M / 2 ^ 44)
    (next : ∀ l' UR UL, State a c (δ + M / 2 ^ 48) dl db dr true l' LL LR UR UL → 3 ≤ l'.length →
      Outcome M a c (shOuterLoop (fp ⟨c.xmin, c.ymax⟩) rest (l'.map fp))) :
    Outcome M a c (shOuterLoop (fp ⟨c.xmax, c.ymax⟩) (fp ⟨c.xmin, c.ymax⟩ :: rest) (l.map fp)) := by
  have hM0 : 0 < M := lt_of_lt_of_le (by positivity) hM
  have hst0 : δ ≤ δ + M / 2 ^ 48 := le_add_of_nonneg_right (by positivity)
  have hδ0 : 0 ≤ δ := le_trans (by positivity) hδ
  have hne : l ≠ [] := fun e => by rw [e] at hl; simp at hl
  obtain ⟨g1, g2⟩ := gap_small hM hM' ha hc hc.wide
  have L := lineOk_y hM hM' (r := ⟨c.xmax, c.ymax⟩) (s := ⟨c.xmin, c.ymax⟩) (σ := -1) (c := c.ymax)
    (usual_crd hM hM' ha hc hc.usual.xmax hc.usual.ymax) (usual_crd hM hM' ha hc hc.usual.xmin hc.usual.ymax) rfl rfl
    (by simp only; rw [abs_sub_comm, abs_of_pos (by linarith)]; exact g2) (Or.inr ⟨rfl, g1⟩)
  have hr : [LL, LR, UR, UL] ~r [UL, LL, LR, UR] := ⟨3, rfl⟩
  rcases stage hM hM' (rest := rest) L (Or.inr rfl) (fun B p => and_comm) (hst.same.rotated hr) hne
    (fun q hq => (hst.rep q (hr.mem_iff.2 hq)).symm) hst.top.swap (by rw [neg_neg]; exact hst.bottom) hst.left.swap hst.right
    ha.usual.ymax hc.usual.ymax ha.usual.ymin hc.usual.ymin.2.1 ha.usual.xmin.2.1 hc.usual.xmin.2.1 ha.usual.xmax.2.1
    hc.usual.xmax.2.1 hδ (by linarith) (by linarith [ha.high]) (by linarith [hc.high]) with
    ⟨h1, h2⟩ | ⟨h0, l', q0, q3, h1, h2, h3, h4, h5, h6⟩
  · exact Or.inl ⟨h2, Or.inr (empty_y hM hM' ha hc (x := 0) (Or.inr (by linarith)))⟩
  · have hr' : [q0, LL, LR, q3] ~r [LL, LR, q3, q0] := ⟨1, rfl⟩
    have hs' : State a c (δ + M / 2 ^ 48) dl db dr true l' LL LR q3 q0 :=
      ⟨h1.rotated hr', fun q hq => (h2 q (hr'.mem_iff.2 hq)).symm, h4.swap, h5, hst.bottom.mono hst0, h3.swap, hst.pl,
        hst.pr, hst.pb, fun _ => by linarith⟩
    exact finish hM hM' ha hc (r := fp ⟨0, 0⟩) (by linarith) hδ' hs' h6 fun hl' => next l' q3 q0 hs' hl'

end

end Celltree.Fl
