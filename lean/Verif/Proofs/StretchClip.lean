import Verif.Props.Stretch
import Verif.Spec.StretchAreas

/-!
# Clipping and separating axes in stretched coordinates
-/

set_option linter.unusedSectionVars false

namespace Celltree

theorem prange_rel {α β : Type} {S : α → β → Prop} (sched : List Nat) (n : Nat) {a : α} {b : β} (hab : S a b) {f : Nat → M α}
    {g : Nat → M β} (h : ∀ i, RelM S (f i) (g i)) : RelM (List.Forall₂ S) (prange sched n a f) (prange sched n b g) := by
  unfold prange
  have key : ∀ (res : List α) (res' : List β), List.Forall₂ S res res' →
      RelM (List.Forall₂ S) (sched.foldlM (fun res i => do wr res i (← f i)) res) (sched.foldlM (fun res i => do wr res i (← g i)) res') := by
    induction sched with
    | nil => exact fun _ _ h => h
    | cons i sched ih =>
      intro res res' hr
      rw [List.foldlM_cons, List.foldlM_cons]
      refine RelM.bind ((h i).bind fun x y hxy => wr_rel hr i hxy) ih
  refine key _ _ ?_
  clear key
  induction n with
  | zero => exact .nil
  | succ n ih => exact .cons hab ih

section
variable {K : Type} [Field K] [LinearOrder K] [IsStrictOrderedRing K] {env : Env K} {kx ky x0 y0 : K}

local notation "P" => PtRel (StretchRel kx ky x0 y0)

theorem stretch_x {a a' : Pt K} (h : P a a') : a'.x = kx * a.x + x0 := h.1
theorem stretch_y {a a' : Pt K} (h : P a a') : a'.y = ky * a.y + y0 := h.2

theorem stretch_dx {a a' b b' : Pt K} (ha : P a a') (hb : P b b') : b'.x - a'.x = kx * (b.x - a.x) := by
  rw [stretch_x ha, stretch_x hb]; ring
theorem stretch_dy {a a' b b' : Pt K} (ha : P a a') (hb : P b b') : b'.y - a'.y = ky * (b.y - a.y) := by
  rw [stretch_y ha, stretch_y hb]; ring

/-- Options of related points. -/
def OptRel {α β : Type} (S : α → β → Prop) : Option α → Option β → Prop
  | none, none => True
  | some a, some b => S a b
  | _, _ => False

theorem shInside_rel (hk : 0 < kx * ky) {p p' r r' : Pt K} (hp : P p p') (hr : P r r') (U : Pt K) :
    shInside p' r' ⟨kx * U.x, ky * U.y⟩ = shInside p r U := by
  unfold shInside
  rw [decide_eq_decide]
  simp only [gt_iff_lt]
  rw [stretch_dx hr hp, stretch_dy hr hp, show ky * U.y * (kx * (p.x - r.x)) = kx * ky * (U.y * (p.x - r.x)) by ring,
    show kx * U.x * (ky * (p.y - r.y)) = kx * ky * (U.x * (p.y - r.y)) by ring, mul_lt_mul_iff_right₀ hk]

theorem shIntersection_rel (hk : 0 < kx * ky) {a a' r r' : Pt K} (ha : P a a') (hr : P r r') (U V : Pt K) :
    RelM (OptRel P) (shIntersection a V r ⟨-U.y, U.x⟩) (shIntersection a' ⟨kx * V.x, ky * V.y⟩ r' ⟨-(ky * U.y), kx * U.x⟩) := by
  unfold shIntersection dot fdiv
  simp only
  rw [stretch_dx ha hr, stretch_dy ha hr,
    show -(ky * U.y) * (kx * V.x) + kx * U.x * (ky * V.y) = kx * ky * (-U.y * V.x + U.x * V.y) by ring,
    show -(ky * U.y) * (kx * (r.x - a.x)) + kx * U.x * (ky * (r.y - a.y)) = kx * ky * (-U.y * (r.x - a.x) + U.x * (r.y - a.y)) by ring,
    beq_zero_mul hk.ne', mul_div_mul_left _ _ hk.ne']
  by_cases h0 : (-U.y * V.x + U.x * V.y == 0) = true
  · simp only [h0, Bool.not_true, Bool.false_eq_true, if_false]
    exact trivial
  · rw [Bool.not_eq_true] at h0
    simp only [h0, Bool.not_false, if_true, Bool.false_eq_true, if_false, ok_bind]
    show PtRel _ _ _
    constructor
    · show a'.x + _ = kx * _ + x0
      rw [stretch_x ha]; ring
    · show a'.y + _ = ky * _ + y0
      rw [stretch_y ha]; ring

theorem pushPoint_rel {out out' : List (Pt K)} (h : List.Forall₂ P out out') {p p' : Pt K} (hp : P p p') :
    RelM (List.Forall₂ P) (pushPoint out p) (pushPoint out' p') := by
  unfold pushPoint
  rw [h.length_eq]
  split
  · exact List.rel_append h (.cons hp .nil)
  · exact rfl

theorem shClipLoop_rel (hkx : 0 < kx) (hky : 0 < ky) {r r' : Pt K} (hr : P r r') (U : Pt K) {l l' : List (Pt K)} (hl : List.Forall₂ P l l')
    {a a' : Pt K} (ha : P a a') (aIn : Bool) {out out' : List (Pt K)} (ho : List.Forall₂ P out out') :
    RelM (List.Forall₂ P) (shClipLoop r U ⟨-U.y, U.x⟩ a aIn l out)
      (shClipLoop r' ⟨kx * U.x, ky * U.y⟩ ⟨-(ky * U.y), kx * U.x⟩ a' aIn l' out') := by
  have hk : 0 < kx * ky := mul_pos hkx hky
  induction hl generalizing a a' aIn out out' with
  | nil => exact ho
  | cons hb _ ih =>
    unfold shClipLoop
    simp only
    rw [stretch_dx ha hb, stretch_dy ha hb, beq_zero_mul hkx.ne', beq_zero_mul hky.ne', shInside_rel hk hb hr]
    split
    · exact ih ha aIn ho
    split
    · have next : ∀ {o o' : List (Pt K)}, List.Forall₂ P o o' → RelM (List.Forall₂ P) _ _ := fun hoo =>
        (pushPoint_rel hoo hb).bind fun o o' hoo => ih hb true hoo
      split
      · refine (shIntersection_rel hk ha hr U ⟨_, _⟩).bind fun q q' hq => ?_
        match q, q', hq with
        | none, none, _ => exact next ho
        | some q, some q', hq => exact (pushPoint_rel ho hq).bind fun o o' hoo => next hoo
      · exact next ho
    split
    · refine (shIntersection_rel hk ha hr U ⟨_, _⟩).bind fun q q' hq => ?_
      match q, q', hq with
      | none, none, _ => exact (pushPoint_rel ho hb).bind fun o o' hoo => ih hb true hoo
      | some q, some q', hq => exact (pushPoint_rel ho hq).bind fun o o' hoo => ih hb false hoo
    · exact ih hb false ho

theorem shOuterLoop_rel (hkx : 0 < kx) (hky : 0 < ky) {l l' : List (Pt K)} (hl : List.Forall₂ P l l') {r r' : Pt K} (hr : P r r')
    {out out' : List (Pt K)} (ho : List.Forall₂ P out out') :
    RelM (OptRel (List.Forall₂ P)) (shOuterLoop r l out) (shOuterLoop r' l' out') := by
  induction hl generalizing r r' out out' with
  | nil => exact ho
  | @cons s s' _ _ hs _ ih =>
    unfold shOuterLoop
    simp only
    rw [stretch_dx hr hs, stretch_dy hr hs, beq_zero_mul hkx.ne', beq_zero_mul hky.ne']
    split
    · exact ih hr ho
    rw [ho.length_eq]
    refine (rdI_rel ho _).bind fun a a' ha => ?_
    have e := shInside_rel (mul_pos hkx hky) ha hr ⟨s.x - r.x, s.y - r.y⟩
    simp only at e
    rw [e]
    refine (shClipLoop_rel hkx hky hr ⟨s.x - r.x, s.y - r.y⟩ ho ha _ .nil).bind fun o o' hoo => ?_
    rw [hoo.length_eq]
    split
    · exact trivial
    · exact ih hs hoo

theorem polygonPolygonClip_rel (hkx : 0 < kx) (hky : 0 < ky) {a a' b b' : List (Pt K)} (ha : List.Forall₂ P a a')
    (hb : List.Forall₂ P b b') : RelM (OptRel (List.Forall₂ P)) (polygonPolygonClip a b) (polygonPolygonClip a' b') := by
  unfold polygonPolygonClip
  rw [ha.length_eq]
  split
  · exact rfl
  · rw [hb.length_eq]
    exact (rdI_rel hb _).bind fun r r' hr => shOuterLoop_rel hkx hky hb hr ha

theorem polygonAreaLoop_rel (hk : 0 < kx * ky) {l l' : List (Pt K)} (hl : List.Forall₂ P l l') {a a' : Pt K} (ha : P a a') (U : Pt K)
    (area : K) : polygonAreaLoop a' ⟨kx * U.x, ky * U.y⟩ l' (kx * ky * area) = kx * ky * polygonAreaLoop a U l area := by
  induction hl generalizing U area with
  | nil => rfl
  | cons hc _ ih =>
    unfold polygonAreaLoop
    simp only
    have e : ∀ c c' : Pt K, P c c' → toVector c' a' = ⟨kx * (toVector c a).x, ky * (toVector c a).y⟩ := by
      intro c c' h
      exact Pt.ext' (stretch_dx h ha) (stretch_dy h ha)
    rw [e _ _ hc, ← ih]
    congr 1
    rw [mul_add]
    congr 1
    rw [fabs_eq, fabs_eq, ← abs_of_pos hk, ← abs_mul]
    congr 1
    unfold cross
    simp only
    ring

theorem polygonArea_rel (hk : 0 < kx * ky) {l l' : List (Pt K)} (hl : List.Forall₂ P l l') :
    RelM (fun A A' => A' = kx * ky * A) (polygonArea l) (polygonArea l') := by
  match l, l', hl with
  | [], [], _ => exact rfl
  | [_], [_], _ => exact rfl
  | a :: b :: rest, a' :: b' :: rest', .cons ha (.cons hb hr) =>
    show half * polygonAreaLoop a' (toVector a' b') rest' 0 = kx * ky * (half * polygonAreaLoop a (toVector a b) rest 0)
    have e : toVector a' b' = ⟨kx * (toVector a b).x, ky * (toVector a b).y⟩ := Pt.ext' (stretch_dx ha hb) (stretch_dy ha hb)
    have := polygonAreaLoop_rel hk hr ha (toVector a b) 0
    rw [mul_zero] at this
    rw [e, this]
    ring

theorem polygonPolygonClipArea_rel (hkx : 0 < kx) (hky : 0 < ky) {a a' b b' : List (Pt K)} (ha : List.Forall₂ P a a')
    (hb : List.Forall₂ P b b') : RelM (fun A A' => A' = kx * ky * A) (polygonPolygonClipArea a b) (polygonPolygonClipArea a' b') := by
  unfold polygonPolygonClipArea
  refine (polygonPolygonClip_rel hkx hky ha hb).bind fun q q' hq => ?_
  match q, q', hq with
  | none, none, _ => exact (mul_zero _).symm
  | some q, some q', hq => exact polygonArea_rel (mul_pos hkx hky) hq

theorem boxAreaOfIntersection_rel (hkx : 0 < kx) (hky : 0 < ky) {boxes boxes' : List (Box K)}
    (hb : List.Forall₂ (BoxRel (StretchRel kx ky x0 y0)) boxes boxes') {vs vs' : List (Pt K)} (hv : List.Forall₂ P vs vs')
    (faces : List (List Int)) (i j sched : List Nat) :
    RelM (List.Forall₂ fun A A' => A' = kx * ky * A) (boxAreaOfIntersection boxes vs faces i j sched)
      (boxAreaOfIntersection boxes' vs' faces i j sched) := by
  unfold boxAreaOfIntersection
  refine prange_rel (S := fun A A' => A' = kx * ky * A) _ _ (mul_zero (kx * ky)).symm fun k => ?_
  refine (RelM.of_eq rfl).bind fun m m' hm => ?_
  subst hm
  refine (rd_rel hb m).bind fun b b' hbb => ?_
  refine (RelM.of_eq rfl).bind fun m m' hm => ?_
  subst hm
  refine (RelM.of_eq rfl).bind fun f f' hf => ?_
  subst hf
  refine (copyVertices_rel hv f).bind fun poly poly' hp => polygonPolygonClipArea_rel hkx hky ?_ hp
  obtain ⟨h1, h2, h3, h4⟩ := boxRel_iff.1 hbb
  exact .cons ⟨h1, h3⟩ (.cons ⟨h2, h3⟩ (.cons ⟨h2, h4⟩ (.cons ⟨h1, h4⟩ .nil)))

theorem areaOfIntersection_rel (hkx : 0 < kx) (hky : 0 < ky) {ws ws' vs vs' : List (Pt K)} (hw : List.Forall₂ P ws ws')
    (hv : List.Forall₂ P vs vs') (facesA facesB : List (List Int)) (i j sched : List Nat) :
    RelM (List.Forall₂ fun A A' => A' = kx * ky * A) (areaOfIntersection ws vs facesA facesB i j sched)
      (areaOfIntersection ws' vs' facesA facesB i j sched) := by
  unfold areaOfIntersection
  refine prange_rel (S := fun A A' => A' = kx * ky * A) _ _ (mul_zero (kx * ky)).symm fun k => ?_
  refine (RelM.of_eq rfl).bind fun m m' hm => ?_
  subst hm
  refine (RelM.of_eq rfl).bind fun f f' hf => ?_
  subst hf
  refine (RelM.of_eq rfl).bind fun m m' hm => ?_
  subst hm
  refine (RelM.of_eq rfl).bind fun g g' hg => ?_
  subst hg
  refine (copyVertices_rel hw f).bind fun poly poly' hp => ?_
  exact (copyVertices_rel hv g).bind fun q q' hq => polygonPolygonClipArea_rel hkx hky hp hq

/-! ## Separating axes -/

theorem foldl_extrema (n : Pt K) (l : List (Pt K)) (lo hi c : K) :
    ((l.foldl (fun (m : K × K) p => (fmin m.1 (dot p n), fmax m.2 (dot p n))) (lo, hi)).1 < c ↔ lo < c ∨ ∃ p ∈ l, dot p n < c) ∧
    (c < (l.foldl (fun (m : K × K) p => (fmin m.1 (dot p n), fmax m.2 (dot p n))) (lo, hi)).2 ↔ c < hi ∨ ∃ p ∈ l, c < dot p n) := by
  induction l generalizing lo hi with
  | nil => simp
  | cons a l ih =>
    rw [List.foldl_cons]
    obtain ⟨h1, h2⟩ := ih (fmin lo (dot a n)) (fmax hi (dot a n))
    rw [h1, h2, fmin_eq, fmax_eq, min_lt_iff, lt_max_iff]
    simp only [List.mem_cons, exists_eq_or_imp, or_assoc]
    exact ⟨trivial, trivial⟩

/-- One of the two comparisons of `is_separating_axis`, for projections that are in the range of the floats. -/
theorem extrema_lt {n : Pt K} {a b : List (Pt K)} (ha : ∀ p ∈ a, dot p n < env.floatMax)
    (hb : ∀ p ∈ b, env.floatMin < dot p n) : (extremaProjected env n b).1 < (extremaProjected env n a).2 ↔
      env.floatMax < env.floatMin ∨ ∃ p ∈ b, ∃ q ∈ a, dot p n < dot q n := by
  unfold extremaProjected
  rw [(foldl_extrema n b _ _ _).1, (foldl_extrema n a _ _ _).2]
  simp only [(foldl_extrema n a _ _ _).2]
  constructor
  · rintro ((h | ⟨q, hq, h⟩) | ⟨p, hp, h | h⟩)
    · exact Or.inl h
    · exact absurd h (ha q hq).not_gt
    · exact absurd h (hb p hp).not_gt
    · exact Or.inr ⟨p, hp, h⟩
  · rintro (h | ⟨p, hp, h⟩)
    · exact Or.inl (Or.inl h)
    · exact Or.inr ⟨p, hp, Or.inr h⟩

theorem forall₂_exists {α β : Type} {S : α → β → Prop} {l : List α} {m : List β} (h : List.Forall₂ S l m) {p : α → Prop} {q : β → Prop}
    (hpq : ∀ a ∈ l, ∀ b ∈ m, S a b → (p a ↔ q b)) : (∃ a ∈ l, p a) ↔ ∃ b ∈ m, q b := by
  induction h with
  | nil => simp
  | cons h _ ih =>
    simp only [List.mem_cons, exists_eq_or_imp]
    rw [hpq _ List.mem_cons_self _ List.mem_cons_self h,
      ih fun a ha b hb => hpq a (List.mem_cons_of_mem _ ha) b (List.mem_cons_of_mem _ hb)]

theorem isSeparatingAxis_rel (hk : 0 < kx * ky) {a a' b b' : List (Pt K)} (ha : List.Forall₂ P a a') (hb : List.Forall₂ P b b') (n : Pt K)
    (h : ∀ p ∈ a ++ b, env.floatMin < dot p n ∧ dot p n < env.floatMax)
    (h' : ∀ p ∈ a' ++ b', env.floatMin < dot p ⟨ky * n.x, kx * n.y⟩ ∧ dot p ⟨ky * n.x, kx * n.y⟩ < env.floatMax) :
    isSeparatingAxis env n a b = isSeparatingAxis env ⟨ky * n.x, kx * n.y⟩ a' b' := by
  have e : ∀ {p p' q q' : Pt K}, P p p' → P q q' →
      (dot p n < dot q n ↔ dot p' ⟨ky * n.x, kx * n.y⟩ < dot q' ⟨ky * n.x, kx * n.y⟩) := by
    intro p p' q q' hp hq
    rw [← sub_pos, ← sub_pos (a := dot q' _), show dot q' ⟨ky * n.x, kx * n.y⟩ - dot p' ⟨ky * n.x, kx * n.y⟩ =
      kx * ky * (dot q n - dot p n) from ?_]
    · exact (mul_pos_iff_of_pos_left hk).symm
    · unfold dot
      simp only
      rw [stretch_x hp, stretch_y hp, stretch_x hq, stretch_y hq]
      ring
  have key : ∀ {a a' b b' : List (Pt K)}, List.Forall₂ P a a' → List.Forall₂ P b b' →
      (∀ p ∈ a, env.floatMin < dot p n ∧ dot p n < env.floatMax) → (∀ p ∈ b, env.floatMin < dot p n ∧ dot p n < env.floatMax) →
      (∀ p ∈ a', env.floatMin < dot p ⟨ky * n.x, kx * n.y⟩ ∧ dot p ⟨ky * n.x, kx * n.y⟩ < env.floatMax) →
      (∀ p ∈ b', env.floatMin < dot p ⟨ky * n.x, kx * n.y⟩ ∧ dot p ⟨ky * n.x, kx * n.y⟩ < env.floatMax) →
      ((extremaProjected env n a).2 > (extremaProjected env n b).1 ↔
        (extremaProjected env ⟨ky * n.x, kx * n.y⟩ a').2 > (extremaProjected env ⟨ky * n.x, kx * n.y⟩ b').1) := by
    intro a a' b b' ha hb ra rb ra' rb'
    show _ < _ ↔ _ < _
    rw [extrema_lt (fun p hp => (ra p hp).2) fun p hp => (rb p hp).1, extrema_lt (fun p hp => (ra' p hp).2) fun p hp => (rb' p hp).1]
    refine or_congr Iff.rfl (forall₂_exists hb fun p _ p' _ hp => forall₂_exists ha fun q _ q' _ hq => e hp hq)
  have m1 : ∀ {l m : List (Pt K)} {Q : Pt K → Prop}, (∀ p ∈ l ++ m, Q p) → (∀ p ∈ l, Q p) ∧ ∀ p ∈ m, Q p :=
    fun h => ⟨fun p hp => h p (List.mem_append_left _ hp), fun p hp => h p (List.mem_append_right _ hp)⟩
  unfold isSeparatingAxis
  simp only
  rw [decide_eq_decide.2 (key ha hb (m1 h).1 (m1 h).2 (m1 h').1 (m1 h').2),
    decide_eq_decide.2 (key hb ha (m1 h).2 (m1 h).1 (m1 h').2 (m1 h').1)]

theorem separatingAxesLoop_rel (hkx : 0 < kx) (hky : 0 < ky) {vs vs' a a' b b' l l' : List (Pt K)} (ha : List.Forall₂ P a a')
    (hb : List.Forall₂ P b b') (hv : ProductsInRange env vs) (hv' : ProductsInRange env vs') (h : ∀ p ∈ a ++ b, p ∈ vs)
    (h' : ∀ p ∈ a' ++ b', p ∈ vs') (hl : List.Forall₂ P l l') (m : ∀ p ∈ l, p ∈ vs) (m' : ∀ p ∈ l', p ∈ vs') {p p' : Pt K}
    (hp : P p p') (mp : p ∈ vs) (mp' : p' ∈ vs') : separatingAxesLoop env a b p l = separatingAxesLoop env a' b' p' l' := by
  induction hl generalizing p p' with
  | nil => rfl
  | @cons q q' _ _ hq _ ih =>
    have mq := m q List.mem_cons_self
    have mq' := m' q' List.mem_cons_self
    have next := ih (fun x hx => m x (List.mem_cons_of_mem _ hx)) (fun x hx => m' x (List.mem_cons_of_mem _ hx)) hq mq mq'
    unfold separatingAxesLoop
    simp only
    rw [next, stretch_dx hp hq, stretch_dy hq hp, beq_zero_mul hkx.ne', beq_zero_mul hky.ne']
    rw [isSeparatingAxis_rel (mul_pos hkx hky) ha hb ⟨p.y - q.y, q.x - p.x⟩ (fun v hv1 => hv p mp q mq v (h v hv1)) fun v hv1 => ?_]
    have := hv' p' mp' q' mq' v (h' v hv1)
    rw [stretch_dx hp hq, stretch_dy hq hp] at this
    exact this

theorem mem_of_rdI {α : Type} {l : List α} {i : Int} {a : α} (h : rdI l i = .ok a) : a ∈ l := by
  unfold rdI at h
  split at h
  · cases h
  · exact List.mem_of_getElem? (rd_eq_ok.1 h)

theorem separatingAxes_rel (hkx : 0 < kx) (hky : 0 < ky) {vs vs' a a' b b' : List (Pt K)} (ha : List.Forall₂ P a a')
    (hb : List.Forall₂ P b b') (hv : ProductsInRange env vs) (hv' : ProductsInRange env vs') (h : ∀ p ∈ a ++ b, p ∈ vs)
    (h' : ∀ p ∈ a' ++ b', p ∈ vs') : separatingAxes env a b = separatingAxes env a' b' := by
  unfold separatingAxes
  have hr := rdI_rel ha ((a.length : Int) - 1)
  rw [← ha.length_eq]
  match e1 : rdI a ((a.length : Int) - 1), e2 : rdI a' ((a.length : Int) - 1), hr with
  | .error e, .error e', hr => rw [show e = e' from hr]; rfl
  | .ok p, .ok p', hr =>
    simp only [ok_bind]
    rw [separatingAxesLoop_rel hkx hky ha hb hv hv' h h' ha (fun p hp => h p (List.mem_append_left _ hp))
      (fun p hp => h' p (List.mem_append_left _ hp)) hr (h _ (List.mem_append_left _ (mem_of_rdI e1)))
      (h' _ (List.mem_append_left _ (mem_of_rdI e2)))]

theorem copyVertices_mem {vs : List (Pt K)} {face : List Int} {poly : List (Pt K)} (h : copyVertices vs face = .ok poly) :
    ∀ p ∈ poly, p ∈ vs := by
  unfold copyVertices at h
  simp only at h
  split at h
  · cases h
  · obtain ⟨h1, h2⟩ := mapM_eq_ok h
    intro p hp
    obtain ⟨i, hi, rfl⟩ := List.getElem_of_mem hp
    rw [h1] at hi
    obtain ⟨b, h3, h4⟩ := h2 i _ (List.getElem?_eq_getElem hi)
    rw [List.getElem?_eq_getElem (h1 ▸ hi)] at h3
    rw [Option.some.inj h3]
    exact mem_of_rdI h4

theorem polygonsIntersect_rel (hkx : 0 < kx) (hky : 0 < ky) {ws ws' vs vs' : List (Pt K)} (hw : List.Forall₂ P ws ws')
    (hv : List.Forall₂ P vs vs') (hr : ProductsInRange env (ws ++ vs)) (hr' : ProductsInRange env (ws' ++ vs'))
    (facesA facesB : List (List Int)) (i j sched : List Nat) :
    polygonsIntersect env ws vs facesA facesB i j sched = polygonsIntersect env ws' vs' facesA facesB i j sched := by
  unfold polygonsIntersect
  congr 1
  funext k
  refine RelM.eq ?_
  refine (RelM.of_eq rfl).bind fun m m' hm => ?_
  subst hm
  refine (RelM.of_eq rfl).bind fun f f' hf => ?_
  subst hf
  refine (RelM.of_eq rfl).bind fun m m' hm => ?_
  subst hm
  refine (RelM.of_eq rfl).bind fun g g' hg => ?_
  subst hg
  have h1 := copyVertices_rel hw f
  have h2 := copyVertices_rel hv g
  match e1 : copyVertices ws f, e2 : copyVertices ws' f, h1 with
  | .error e, .error e', h => exact h
  | .ok a, .ok a', ha =>
    match e3 : copyVertices vs g, e4 : copyVertices vs' g, h2 with
    | .error e, .error e', h => exact h
    | .ok b, .ok b', hb =>
      simp only [ok_bind]
      have m : ∀ {a b : List (Pt K)} {u w : List (Pt K)}, (∀ p ∈ a, p ∈ u) → (∀ p ∈ b, p ∈ w) →
          (∀ p ∈ a ++ b, p ∈ u ++ w) ∧ ∀ p ∈ b ++ a, p ∈ u ++ w := by
        intro a b u w h1 h2
        constructor <;> intro p hp <;> rcases List.mem_append.1 hp with hp | hp
        · exact List.mem_append_left _ (h1 p hp)
        · exact List.mem_append_right _ (h2 p hp)
        · exact List.mem_append_right _ (h2 p hp)
        · exact List.mem_append_left _ (h1 p hp)
      have mm := m (copyVertices_mem e1) (copyVertices_mem e3)
      have mm' := m (copyVertices_mem e2) (copyVertices_mem e4)
      refine RelM.of_eq ?_
      rw [separatingAxes_rel hkx hky ha hb hr hr' mm.1 mm'.1, separatingAxes_rel hkx hky hb ha hr hr' mm.2 mm'.2]

end

end Celltree
