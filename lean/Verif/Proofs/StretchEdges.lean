import Verif.Proofs.StretchClip
import Verif.Spec.StretchAreas

/-!
# Clipping of segments and the search for segments in stretched coordinates
-/

set_option linter.unusedSectionVars false

namespace Celltree

/-! ## Search -/

section
variable {F : Type} [Add F] [Sub F] [Mul F] [Div F] [Zero F] [One F] [Neg F] [IntCast F]
  [LT F] [LE F] [BEq F] [DecidableLT F] [DecidableLE F] {R : Bool → F → F → Prop} {t t' : CellTree F}

/-- Related pairs of points. -/
def PairRel {α β : Type} (S : α → β → Prop) (p : α × α) (q : β × β) : Prop := S p.1 q.1 ∧ S p.2 q.2

/-- Related locations. -/
abbrev XyRel (R : Bool → F → F → Prop) : Option (Pt F) × Option (Pt F) → Option (Pt F) × Option (Pt F) → Prop := PairRel (OptRel (PtRel R))

/-- Related results of the test in a leaf. -/
def IsectRel (R : Bool → F → F → Prop) (r r' : Isect F) : Prop := r.1 = r'.1 ∧ XyRel R r.2 r'.2

/-- Related states. -/
structure EdgeStRel (R : Bool → F → F → Prop) (s s' : EdgeSt F) : Prop where
  indices : s.indices = s'.indices
  xy : List.Forall₂ (XyRel R) s.xy s'.xy
  size : s.size = s'.size
  count : s.count = s'.count

/-- Either side. -/
def SumRel {α β γ δ : Type} (S : α → γ → Prop) (T : β → δ → Prop) : α ⊕ β → γ ⊕ δ → Prop
  | .inl a, .inl c => S a c
  | .inr b, .inr d => T b d
  | _, _ => False

theorem whileStack_rel {α σ σ' ρ ρ' : Type} [Inhabited α] {S : σ → σ' → Prop} {T : ρ → ρ' → Prop}
    {visit : α → σ → M (ρ ⊕ (σ × List α))} {visit' : α → σ' → M (ρ' ⊕ (σ' × List α))}
    (h : ∀ x s s', S s s' → RelM (SumRel T fun p q => S p.1 q.1 ∧ p.2 = q.2) (visit x s) (visit' x s')) (fuel : Nat) (stk : Stk α)
    {s : σ} {s' : σ'} (hs : S s s') : RelM (SumRel T S) (whileStack visit fuel stk s) (whileStack visit' fuel stk s') := by
  induction fuel generalizing stk s s' with
  | zero =>
    unfold whileStack
    split
    · exact rfl
    · exact hs
  | succ fuel ih =>
    unfold whileStack
    split
    · refine (RelM.of_eq rfl).bind ?_
      rintro ⟨x, stk⟩ _ rfl
      refine (h x s s' hs).bind fun r r' hr => ?_
      match r, r', hr with
      | .inl r, .inl r', hr => exact hr
      | .inr (s, l), .inr (s', l'), hr =>
        obtain ⟨h1, h2⟩ := hr
        simp only at h1 h2 ⊢
        subst h2
        refine (RelM.of_eq rfl).bind fun k k' hk => ?_
        subst hk
        exact ih k h1
    · exact hs

theorem edgeLeafLoop_rel (h : TreeRel R t t') {isect isect' : Nat → M (Isect F)} (hi : ∀ j, RelM (IsectRel R) (isect j) (isect' j))
    (index n i : Nat) {s s' : EdgeSt F} (hs : EdgeStRel R s s') :
    RelM (SumRel (EdgeStRel R) (EdgeStRel R)) (edgeLeafLoop t.data isect index n i s) (edgeLeafLoop t'.data isect' index n i s') := by
  induction n generalizing i s s' with
  | zero => exact hs
  | succ n ih =>
    unfold edgeLeafLoop
    rw [h.bbIndices]
    refine (RelM.of_eq rfl).bind fun j j' hj => ?_
    subst hj
    refine (hi j).bind ?_
    rintro ⟨b, c, d⟩ ⟨b', c', d'⟩ ⟨h1, h2⟩
    simp only at h1 h2 ⊢
    subst h1
    split
    · rw [hs.size, hs.indices]
      split
      · exact hs
      · refine (RelM.of_eq rfl).bind fun k k' hk => ?_
        subst hk
        refine (wr_rel hs.xy s'.size (a := (c, d)) (b := (c', d')) h2).bind fun x x' hx => ?_
        refine ih (i + 1) ⟨rfl, hx, rfl, ?_⟩
        simp only
        rw [hs.count]
    · exact ih (i + 1) hs

/-- The tests at the nodes agree. -/
def SidesAgree (R : Bool → F → F → Prop) : Prop :=
  ∀ {nd nd' : Node F} {a a' b b' : Pt F}, nd.dim = nd'.dim → R nd.dim nd.Lmax nd'.Lmax → R nd.dim nd.Rmin nd'.Rmin → PtRel R a a' →
    PtRel R b b' → edgeSides nd a b (toVector a b) = edgeSides nd' a' b' (toVector a' b')

/-- The clips of a segment by a box agree. -/
def ClipAgree (R : Bool → F → F → Prop) : Prop :=
  ∀ {a a' b b' : Pt F} {box box' : Box F}, PtRel R a a' → PtRel R b b' → BoxRel R box box' →
    RelM (OptRel (PairRel (PtRel R))) (cohenSutherland a b box) (cohenSutherland a' b' box')

variable {isect isect' : Pt F → Pt F → Nat → M (Isect F)}

theorem locateEdge_rel (hS : SidesAgree R) (hC : ClipAgree R) (h : TreeRel R t t') {a a' b b' : Pt F} (ha : PtRel R a a')
    (hb : PtRel R b b') (hi : ∀ j, RelM (IsectRel R) (isect a b j) (isect' a' b' j))
    (indices : List (Nat × Nat)) {xy xy' : List (Option (Pt F) × Option (Pt F))} (hx : List.Forall₂ (XyRel R) xy xy') (size index : Nat) :
    RelM (fun r r' => r.1 = r'.1 ∧ List.Forall₂ (XyRel R) r.2.1 r'.2.1 ∧ r.2.2 = r'.2.2)
      (locateEdge a b t.data isect indices xy size index) (locateEdge a' b' t'.data isect' indices xy' size index) := by
  unfold locateEdge
  refine (hC ha hb h.bbox).bind fun c c' hc => ?_
  match c, c', hc with
  | none, none, _ => exact ⟨rfl, hx, rfl⟩
  | some c, some c', _ =>
    simp only
    refine (RelM.of_eq rfl).bind fun stk stk' hk => ?_
    subst hk
    rw [h.fuel]
    refine (whileStack_rel (S := EdgeStRel R) (T := EdgeStRel R) (fun k s s' hs => ?_) _ _
      (s := ⟨indices, xy, size, 0⟩) (s' := ⟨indices, xy', size, 0⟩) ⟨rfl, hx, rfl, rfl⟩).bind fun r r' hr => ?_
    · unfold edgeVisit
      refine (rdI_rel h.nodes k).bind fun nd nd' hn => ?_
      rw [← hn.child]
      split
      · rw [← hn.size, ← hn.ptr]
        refine (edgeLeafLoop_rel h hi index _ _ hs).bind fun r r' hr => ?_
        match r, r', hr with
        | .inl r, .inl r', hr => exact hr
        | .inr r, .inr r', hr => exact ⟨hr, rfl⟩
      · rename_i hch
        obtain ⟨h1, h2⟩ := hn.bounds.resolve_left hch
        rw [hS hn.dim h1 h2 ha hb]
        refine (RelM.of_eq rfl).bind fun l l' hl => ?_
        subst hl
        refine ⟨hs, ?_⟩
        unfold pushChildren
        rw [hn.child]
    · match r, r', hr with
      | .inl r, .inl r', hr => exact ⟨hr.indices, hr.xy, by simp only; rw [hr.size]⟩
      | .inr r, .inr r', hr => exact ⟨hr.indices, hr.xy, by simp only; rw [hr.size, hr.count]⟩

theorem forall₂_replicate {α β : Type} {S : α → β → Prop} {a : α} {b : β} (h : S a b) (n : Nat) :
    List.Forall₂ S (List.replicate n a) (List.replicate n b) := by
  induction n with
  | zero => exact .nil
  | succ n ih => exact .cons h ih

theorem growArr_rel {α β : Type} {S : α → β → Prop} {a : α} {b : β} (h : S a b) {l : List α} {m : List β} (hl : List.Forall₂ S l m) :
    List.Forall₂ S (growArr a l) (growArr b m) := by
  unfold growArr
  rw [hl.length_eq]
  exact List.rel_append hl (forall₂_replicate h _)

theorem none_rel : XyRel R ((none, none) : Option (Pt F) × Option (Pt F)) (none, none) := ⟨trivial, trivial⟩

theorem edgeRetry_rel (hS : SidesAgree R) (hC : ClipAgree R) (h : TreeRel R t t') {a a' b b' : Pt F} (ha : PtRel R a a')
    (hb : PtRel R b b') (hi : ∀ j, RelM (IsectRel R) (isect a b j) (isect' a' b' j)) (index total fuel : Nat)
    (indices : List (Nat × Nat)) {xy xy' : List (Option (Pt F) × Option (Pt F))} (hx : List.Forall₂ (XyRel R) xy xy') (size : Nat) :
    RelM (fun r r' => r.1 = r'.1 ∧ List.Forall₂ (XyRel R) r.2.1 r'.2.1 ∧ r.2.2 = r'.2.2)
      (edgeRetry a b t.data isect index total fuel indices xy size) (edgeRetry a' b' t'.data isect' index total fuel indices xy' size) := by
  induction fuel generalizing indices xy xy' size with
  | zero => exact rfl
  | succ fuel ih =>
    unfold edgeRetry
    refine (locateEdge_rel hS hC h ha hb hi indices hx size index).bind ?_
    rintro ⟨i, x, c, s⟩ ⟨i', x', c', s'⟩ ⟨h1, h2, h3⟩
    simp only at h1 h2 h3 ⊢
    subst h1
    obtain ⟨rfl, rfl⟩ := Prod.mk.inj h3
    cases c with
    | none => exact ih _ (growArr_rel none_rel h2) _
    | some c => exact ⟨rfl, h2, rfl⟩

theorem edgeHelperLoop_rel (hS : SidesAgree R) (hC : ClipAgree R) (h : TreeRel R t t')
    (hi : ∀ a a' b b', PtRel R a a' → PtRel R b b' → ∀ j, RelM (IsectRel R) (isect a b j) (isect' a' b' j)) (offset : Nat)
    {edges edges' : List (Pt F × Pt F)} (he : List.Forall₂ (PairRel (PtRel R)) edges edges') (k : Nat) (indices : List (Nat × Nat))
    {xy xy' : List (Option (Pt F) × Option (Pt F))} (hx : List.Forall₂ (XyRel R) xy xy') (total size : Nat) :
    RelM (fun r r' => r.1 = r'.1 ∧ List.Forall₂ (XyRel R) r.2.1 r'.2.1 ∧ r.2.2 = r'.2.2)
      (edgeHelperLoop t.data isect offset edges k indices xy total size)
      (edgeHelperLoop t'.data isect' offset edges' k indices xy' total size) := by
  induction he generalizing k indices xy xy' total size with
  | nil => exact ⟨rfl, hx, rfl⟩
  | @cons e e' _ _ hab _ ih =>
    obtain ⟨a, b⟩ := e
    obtain ⟨a', b'⟩ := e'
    unfold edgeHelperLoop
    rw [h.bbIndices]
    refine (edgeRetry_rel hS hC h hab.1 hab.2 (hi _ _ _ _ hab.1 hab.2) _ _ _ indices hx size).bind ?_
    rintro ⟨i, x, c, s⟩ ⟨i', x', c', s'⟩ ⟨h1, h2, h3⟩
    simp only at h1 h2 h3 ⊢
    subst h1
    obtain ⟨rfl, rfl⟩ := Prod.mk.inj h3
    exact ih _ _ h2 _ _

theorem concatLoop_rel {α β : Type} {S : α → β → Prop} {l : List (List α × Nat)} {m : List (List β × Nat)}
    (h : List.Forall₂ (fun p q => List.Forall₂ S p.1 q.1 ∧ p.2 = q.2) l m) (start : Nat) {out : List α} {out' : List β}
    (ho : List.Forall₂ S out out') : RelM (List.Forall₂ S) (concatLoop l start out) (concatLoop m start out') := by
  induction h generalizing start out out' with
  | nil => exact ho
  | @cons p q _ _ hp _ ih =>
    obtain ⟨p1, p2⟩ := p
    obtain ⟨q1, q2⟩ := q
    obtain ⟨h1, h2⟩ := hp
    simp only at h1 h2
    subst h2
    unfold concatLoop
    have hT : RelM (List.Forall₂ S) (takeExact p1 p2) (takeExact q1 p2) := by
      unfold takeExact
      rw [h1.length_eq]
      split
      · exact forall₂_take h1 _
      · exact rfl
    refine hT.bind fun r r' hr => ?_
    have hW : RelM (List.Forall₂ S) (setSlice out start r) (setSlice out' start r') := by
      unfold setSlice
      rw [hr.length_eq, ho.length_eq]
      split
      · exact List.rel_append (List.rel_append (forall₂_take ho _) hr) (forall₂_drop ho _)
      · exact rfl
    exact hW.bind fun o o' hoo => ih _ hoo

theorem concatenate_rel {α β : Type} {S : α → β → Prop} {a : α} {b : β} (hab : S a b) {l : List (List α × Nat)} {m : List (List β × Nat)}
    (h : List.Forall₂ (fun p q => List.Forall₂ S p.1 q.1 ∧ p.2 = q.2) l m) :
    RelM (List.Forall₂ S) (concatenate a l) (concatenate b m) := by
  unfold concatenate
  have e : l.map Prod.snd = m.map Prod.snd := by
    induction h with
    | nil => rfl
    | cons h _ ih => rw [List.map_cons, List.map_cons, h.2, ih]
  rw [e]
  exact concatLoop_rel h 0 (forall₂_replicate hab _)

theorem arraySplit_rel {α β : Type} {S : α → β → Prop} {l : List α} {m : List β} (h : List.Forall₂ S l m) (n : Nat) :
    RelM (List.Forall₂ (List.Forall₂ S)) (arraySplit l n) (arraySplit m n) := by
  unfold arraySplit
  split
  · exact rfl
  · simp only
    rw [h.length_eq]
    exact splitSizes_rel _ h

theorem locateEdges_rel (hS : SidesAgree R) (hC : ClipAgree R) (h : TreeRel R t t')
    (hi : ∀ a a' b b', PtRel R a a' → PtRel R b b' → ∀ j, RelM (IsectRel R) (isect a b j) (isect' a' b' j))
    {edges edges' : List (Pt F × Pt F)} (he : List.Forall₂ (PairRel (PtRel R)) edges edges') (n : Nat) (sched : List Nat) :
    RelM (fun r r' => r.1 = r'.1 ∧ r.2.1 = r'.2.1 ∧ List.Forall₂ (XyRel R) r.2.2 r'.2.2)
      (locateEdges edges t.data isect n sched) (locateEdges edges' t'.data isect' n sched) := by
  unfold locateEdges
  refine (arraySplit_rel he n).bind fun c c' hc => ?_
  have : chunkOffsets c n = chunkOffsets c' n := by
    unfold chunkOffsets
    exact offsetsLoop_rel (forall₂_dropLast hc) _ _
  rw [this]
  refine (RelM.of_eq rfl).bind fun o o' ho => ?_
  subst ho
  refine (prange_rel (S := fun r r' => r.1 = r'.1 ∧ List.Forall₂ (XyRel R) r.2.1 r'.2.1 ∧ r.2.2 = r'.2.2) sched n
    (a := ([], [], 0)) (b := ([], [], 0)) ⟨rfl, .nil, rfl⟩ fun i => ?_).bind fun r r' hr => ?_
  · refine (rd_rel hc i).bind fun q q' hq => ?_
    refine (RelM.of_eq rfl).bind fun m m' hm => ?_
    subst hm
    unfold locateEdgesHelper
    rw [hq.length_eq]
    exact edgeHelperLoop_rel hS hC h hi m hq _ _ (forall₂_replicate none_rel _) _ _
  · refine (concatenate_rel (none_rel (R := R)) ?_).bind fun x x' hx => ?_
    · rw [List.forall₂_map_left_iff, List.forall₂_map_right_iff]
      exact forall₂_mono hr fun a b h => ⟨h.2.1, h.2.2⟩
    · have e : r.map (fun r => (r.1, r.2.2)) = r'.map (fun r => (r.1, r.2.2)) := by
        clear hx
        induction hr with
        | nil => rfl
        | cons h _ ih => rw [List.map_cons, List.map_cons, ih, h.1, h.2.2]
      rw [e]
      refine (RelM.of_eq rfl).bind fun m m' hm => ?_
      subst hm
      exact ⟨rfl, rfl, hx⟩

end

/-! ## Exact arithmetic -/

section
variable {K : Type} [Field K] [LinearOrder K] [IsStrictOrderedRing K] {env : Env K} {kx ky x0 y0 : K}

theorem stretch_sides (hkx : 0 < kx) (hky : 0 < ky) : SidesAgree (StretchRel kx ky x0 y0) := by
  intro nd nd' a a' b b' hd h1 h2 ha hb
  obtain ⟨c, o, hc, e⟩ := stretch_factor (x0 := x0) (y0 := y0) hkx hky nd.dim
  have g : ∀ {p p' : Pt K}, PtRel (StretchRel kx ky x0 y0) p p' → p'.get nd.dim = c * p.get nd.dim + o := by
    intro p p' hp
    rw [← e]
    exact hp.get nd.dim
  have hv : (toVector a' b').get nd.dim = c * (toVector a b).get nd.dim := by
    have : ∀ (p q : Pt K) (d : Bool), (toVector p q).get d = q.get d - p.get d := by
      intro p q d; cases d <;> rfl
    rw [this, this, g ha, g hb]
    ring
  have h1' : nd'.Lmax = c * nd.Lmax + o := by rw [← e]; exact h1
  have h2' : nd'.Rmin = c * nd.Rmin + o := by rw [← e]; exact h2
  have s : ∀ x y : K, c * x + o - (c * y + o) = c * (x - y) := fun x y => by ring
  have n1 : ∀ x : K, c * x < 0 ↔ x < 0 := fun x => by rw [← not_le, mul_nonneg_iff_of_pos_left hc, not_le]
  have n2 : ∀ x : K, c * x ≤ 0 ↔ x ≤ 0 := fun x => by rw [← not_lt, mul_pos_iff_of_pos_left hc, not_lt]
  unfold edgeSides fdiv
  simp only
  rw [← hd, hv, h1', h2', g ha, g hb]
  simp only [s, gt_iff_lt, ge_iff_le, ← mul_ite, mul_pos_iff_of_pos_left hc, n1, mul_nonneg_iff_of_pos_left hc,
    n2, beq_zero_mul hc.ne', mul_div_mul_left _ _ hc.ne']

theorem RelM.ite {α β : Type} {S : α → β → Prop} {c : Prop} [Decidable c] {x y : M α} {x' y' : M β} (h : RelM S x x') (h' : RelM S y y') :
    RelM S (if c then x else y) (if c then x' else y') := by
  split
  · exact h
  · exact h'

theorem getClip_rel (hkx : 0 < kx) (hky : 0 < ky) {a a' : Pt K} {box box' : Box K} (ha : PtRel (StretchRel kx ky x0 y0) a a')
    (hb : BoxRel (StretchRel kx ky x0 y0) box box') : getClip a box = getClip a' box' := by
  have hR := stretch_order (x0 := x0) (y0 := y0) hkx hky
  obtain ⟨h1, h2, h3, h4⟩ := boxRel_iff.1 hb
  unfold getClip
  simp only [gt_iff_lt, hR.lt ha.1 h1, hR.lt h2 ha.1, hR.lt ha.2 h3, hR.lt h4 ha.2]

theorem csCut_rel (hkx : 0 < kx) (hky : 0 < ky) {a a' : Pt K} {box box' : Box K} (ha : PtRel (StretchRel kx ky x0 y0) a a')
    (hb : BoxRel (StretchRel kx ky x0 y0) box box') (dx dy : K) (opt : Nat) :
    RelM (PtRel (StretchRel kx ky x0 y0)) (csCut a dx dy box opt) (csCut a' (kx * dx) (ky * dy) box' opt) := by
  obtain ⟨h1, h2, h3, h4⟩ := boxRel_iff.1 hb
  have ex : ∀ {z z' : K}, StretchRel kx ky x0 y0 true z z' →
      RelM (fun q q' => q' = kx * q) (fdiv (dx * (z - a.y)) dy) (fdiv (kx * dx * (z' - a'.y)) (ky * dy)) := by
    intro z z' hz
    have hz : z' = ky * z + y0 := hz
    unfold fdiv
    rw [stretch_y ha, hz, beq_zero_mul hky.ne', show kx * dx * (ky * z + y0 - (ky * a.y + y0)) = ky * (kx * (dx * (z - a.y))) by ring,
      mul_div_mul_left _ _ hky.ne', mul_div_assoc kx]
    split
    · exact rfl
    · exact rfl
  have ey : ∀ {z z' : K}, StretchRel kx ky x0 y0 false z z' →
      RelM (fun q q' => q' = ky * q) (fdiv (dy * (z - a.x)) dx) (fdiv (ky * dy * (z' - a'.x)) (kx * dx)) := by
    intro z z' hz
    have hz : z' = kx * z + x0 := hz
    unfold fdiv
    rw [stretch_x ha, hz, beq_zero_mul hkx.ne', show ky * dy * (kx * z + x0 - (kx * a.x + x0)) = kx * (ky * (dy * (z - a.x))) by ring,
      mul_div_mul_left _ _ hkx.ne', mul_div_assoc ky]
    split
    · exact rfl
    · exact rfl
  have px : ∀ q : K, StretchRel kx ky x0 y0 false (a.x + q) (a'.x + kx * q) := by
    intro q
    show _ = kx * _ + x0
    rw [stretch_x ha]; ring
  have py : ∀ q : K, StretchRel kx ky x0 y0 true (a.y + q) (a'.y + ky * q) := by
    intro q
    show _ = ky * _ + y0
    rw [stretch_y ha]; ring
  unfold csCut
  split
  · refine (ex h4).bind fun q q' hq => ?_
    subst hq
    exact ⟨px q, h4⟩
  split
  · refine (ex h3).bind fun q q' hq => ?_
    subst hq
    exact ⟨px q, h3⟩
  split
  · refine (ey h2).bind fun q q' hq => ?_
    subst hq
    exact ⟨h2, py q⟩
  split
  · refine (ey h1).bind fun q q' hq => ?_
    subst hq
    exact ⟨h1, py q⟩
  · exact rfl

theorem csLoop_rel (hkx : 0 < kx) (hky : 0 < ky) {box box' : Box K} (hbox : BoxRel (StretchRel kx ky x0 y0) box box') (fuel : Nat)
    {a a' b b' : Pt K} (ha : PtRel (StretchRel kx ky x0 y0) a a') (hb : PtRel (StretchRel kx ky x0 y0) b b') (k1 k2 : Nat) :
    RelM (OptRel (PairRel (PtRel (StretchRel kx ky x0 y0)))) (csLoop box fuel a b k1 k2 (b.x - a.x) (b.y - a.y))
      (csLoop box' fuel a' b' k1 k2 (b'.x - a'.x) (b'.y - a'.y)) := by
  induction fuel generalizing a a' b b' k1 k2 with
  | zero =>
    unfold csLoop
    split
    · exact ⟨ha, hb⟩
    · exact rfl
  | succ fuel ih =>
    unfold csLoop
    split
    · exact ⟨ha, hb⟩
    simp only
    split
    · exact trivial
    generalize (if k1 ≠ 0 then k1 else k2) = opt
    rw [stretch_dx ha hb, stretch_dy ha hb]
    refine (csCut_rel hkx hky ha hbox _ _ _).bind fun p p' hp => ?_
    have hA : PtRel (StretchRel kx ky x0 y0) (if opt = k1 then p else a)
        (if opt = k1 then p' else a') := by
      split
      · exact hp
      · exact ha
    have hB : PtRel (StretchRel kx ky x0 y0)
        (if opt = k1 then b else if opt = k2 then p else b)
        (if opt = k1 then b' else if opt = k2 then p' else b') := by
      split
      · exact hb
      · split
        · exact hp
        · exact hb
    have next := ih hA hB
    rw [← getClip_rel hkx hky hA hbox, ← getClip_rel hkx hky hB hbox]
    have e1 := stretch_dx hA hB
    have e2 := stretch_dy hA hB
    have z1 : ∀ {x y : K}, y = kx * x → (y == 0) = (x == 0) := by
      rintro x y rfl
      exact beq_zero_mul hkx.ne'
    have z2 : ∀ {x y : K}, y = ky * x → (y == 0) = (x == 0) := by
      rintro x y rfl
      exact beq_zero_mul hky.ne'
    rw [z1 e1, z2 e2]
    exact RelM.ite trivial (next _ _)

theorem stretch_clip (hkx : 0 < kx) (hky : 0 < ky) : ClipAgree (StretchRel kx ky x0 y0) := by
  intro a a' b b' box box' ha hb hbox
  unfold cohenSutherland
  simp only
  rw [stretch_dx ha hb, stretch_dy ha hb, beq_zero_mul hkx.ne', beq_zero_mul hky.ne', ← stretch_dx ha hb, ← stretch_dy ha hb,
    ← getClip_rel hkx hky ha hbox, ← getClip_rel hkx hky hb hbox]
  split
  · exact trivial
  · exact csLoop_rel hkx hky hbox 4 ha hb _ _

/-! ## One factor for both axes -/

variable {k : K}

local notation "Q" => PtRel (StretchRel k k x0 y0)

theorem uniform_vector {a a' b b' : Pt K} (ha : Q a a') (hb : Q b b') : toVector a' b' = ⟨k * (toVector a b).x, k * (toVector a b).y⟩ :=
  Pt.ext' (stretch_dx ha hb) (stretch_dy ha hb)

theorem uniform_cross (U V : Pt K) : cross (⟨k * U.x, k * U.y⟩ : Pt K) ⟨k * V.x, k * V.y⟩ = k * k * cross U V := by
  unfold cross
  ring

theorem beq_mul_mul {c x y : K} (hc : c ≠ 0) : (c * x == c * y) = (x == y) := by
  rw [Bool.eq_iff_iff, beq_iff_eq, beq_iff_eq, mul_right_inj' hc]

theorem aligned_rel (hk : 0 < k) (U V : Pt K) : aligned (⟨k * U.x, k * U.y⟩ : Pt K) ⟨k * V.x, k * V.y⟩ = aligned U V := by
  unfold aligned
  simp only [beq_zero_mul hk.ne', gt_iff_lt, mul_pos_iff_of_pos_left hk]

theorem cbOverlap_rel {c : K} (hc : 0 < c) (ta tb t0 t1 : K) : cbOverlap (c * ta) (c * tb) (c * t0) (c * t1) = cbOverlap ta tb t0 t1 := by
  have h : ∀ p q : K, (if p > q then (q, p) else (p, q)) = (min p q, max p q) := by
    intro p q
    split
    · next h => rw [min_eq_right (le_of_lt h), max_eq_left (le_of_lt h)]
    · next h => rw [min_eq_left (not_lt.1 h), max_eq_right (not_lt.1 h)]
  unfold cbOverlap
  rw [h, h, h, h]
  simp only [fmax_eq, fmin_eq, ← mul_min_of_nonneg _ _ hc.le, ← mul_max_of_nonneg _ _ hc.le, ← mul_sub, gt_iff_lt, lt_max_iff,
    mul_pos_iff_of_pos_left hc]

theorem ptRel_ite {c : Prop} [Decidable c] {R : Bool → K → K → Prop} {p p' q q' : Pt K} (hp : PtRel R p p') (hq : PtRel R q q') :
    PtRel R (if c then p else q) (if c then p' else q') := by
  split
  · exact hp
  · exact hq

theorem optRel_ite {α β : Type} {S : α → β → Prop} {c : Prop} [Decidable c] {x : α} {y : β} (h : S x y) :
    OptRel S (if c then none else some x) (if c then none else some y) := by
  split
  · exact trivial
  · exact h

theorem collinearCase_rel (hk : 0 < k) {a a' b b' v v' w w' : Pt K} (ha : Q a a') (hb : Q b b') (hv : Q v v') (hw : Q w w') :
    OptRel (PairRel Q) (collinearCase a b v w) (collinearCase a' b' v' w') := by
  have hkk : 0 < k * k := mul_pos hk hk
  have s1 : ∀ x y : K, k * x - k * y = k * (x - y) := fun x y => by ring
  have hVV : toVector (⟨k * (v.x - a.x), k * (v.y - a.y)⟩ : Pt K) ⟨k * (w.x - a.x), k * (w.y - a.y)⟩ =
      ⟨k * (toVector (⟨v.x - a.x, v.y - a.y⟩ : Pt K) ⟨w.x - a.x, w.y - a.y⟩).x,
        k * (toVector (⟨v.x - a.x, v.y - a.y⟩ : Pt K) ⟨w.x - a.x, w.y - a.y⟩).y⟩ :=
    Pt.ext' (s1 _ _) (s1 _ _)
  have hc : ∀ (n m : Pt K), cross (⟨-(k * n.y), k * n.x⟩ : Pt K) ⟨k * m.x, k * m.y⟩ = k * k * cross (⟨-n.y, n.x⟩ : Pt K) m := by
    intro n m
    unfold cross
    simp only
    ring
  unfold collinearCase
  simp only
  rw [stretch_dx ha hb, stretch_dy ha hb, stretch_dx ha hv, stretch_dy ha hv, stretch_dx ha hw, stretch_dy ha hw, hVV,
    aligned_rel hk ⟨b.x - a.x, b.y - a.y⟩]
  generalize aligned (⟨b.x - a.x, b.y - a.y⟩ : Pt K) (toVector (⟨v.x - a.x, v.y - a.y⟩ : Pt K) ⟨w.x - a.x, w.y - a.y⟩) = al
  have e : ∀ (V W : Pt K) (c : Bool), (if c = true then (⟨k * V.x, k * V.y⟩ : Pt K) else ⟨k * W.x, k * W.y⟩) =
      ⟨k * (if c = true then V else W).x, k * (if c = true then V else W).y⟩ := by
    intro V W c
    cases c <;> rfl
  rw [e ⟨v.x - a.x, v.y - a.y⟩ ⟨w.x - a.x, w.y - a.y⟩, e ⟨w.x - a.x, w.y - a.y⟩ ⟨v.x - a.x, v.y - a.y⟩,
    hc ⟨b.x - a.x, b.y - a.y⟩ ⟨b.x - a.x, b.y - a.y⟩, hc ⟨b.x - a.x, b.y - a.y⟩, hc ⟨b.x - a.x, b.y - a.y⟩,
    show (cbOverlap 0 : K → K → K → Bool) = cbOverlap (k * k * 0) by rw [mul_zero], cbOverlap_rel hkk, mul_zero]
  simp only
  refine optRel_ite ⟨?_, ?_⟩
  · simp only [gt_iff_lt, ← not_le, mul_nonneg_iff_of_pos_left hkk]
    exact ptRel_ite (ptRel_ite hv hw) ha
  · simp only [gt_iff_lt, mul_lt_mul_iff_right₀ hkk]
    exact ptRel_ite (ptRel_ite hw hv) hb

/-- Related outcomes of the scan. -/
def ScanRel (R : Bool → K → K → Prop) : CbScan K → CbScan K → Prop
  | .collinear r, .collinear r' => OptRel (PairRel (PtRel R)) r r'
  | .found n i j, .found n' i' j' => n = n' ∧ i = i' ∧ j = j'
  | _, _ => False

theorem cbScan_rel (hk : 0 < k) {a a' b b' : Pt K} (ha : Q a a') (hb : Q b b') {poly poly' : List (Pt K)} (hp : List.Forall₂ Q poly poly')
    (n i m : Nat) (i0 i1 : Int) (ksi : K) :
    RelM (ScanRel (StretchRel k k x0 y0)) (cbScan a b (toVector a b) poly n i m i0 i1 ksi)
      (cbScan a' b' (toVector a' b') poly' n i m i0 i1 (k * k * ksi)) := by
  have hkk : 0 < k * k := mul_pos hk hk
  have n1 : ∀ x : K, k * k * x < 0 ↔ x < 0 := fun x => by rw [← not_le, mul_nonneg_iff_of_pos_left hkk, not_le]
  induction n generalizing i m i0 i1 ksi with
  | zero => exact ⟨rfl, rfl, rfl⟩
  | succ n ih =>
    unfold cbScan
    split
    · rw [← hp.length_eq]
      refine (rd_rel hp i).bind fun v v' hv => ?_
      refine (rd_rel hp _).bind fun w w' hw => ?_
      simp only
      rw [uniform_vector ha hw, uniform_vector ha hb, uniform_cross, ← uniform_vector ha hb]
      simp only [n1, beq_zero_mul hkk.ne']
      split
      · split
        · exact ih _ _ _ _ _
        · exact ih _ _ _ _ _
      split
      · exact collinearCase_rel hk ha hb hv hw
      · exact ih _ _ _ _ _
    · exact ⟨rfl, rfl, rfl⟩

theorem computeIntersection_rel (hk : 0 < k) {a a' b b' v v' w w' : Pt K} (ha : Q a a') (hb : Q b b') (hv : Q v v') (hw : Q w w') :
    computeIntersection a (toVector a b) v w = computeIntersection a' (toVector a' b') v' w' := by
  have hkk : 0 < k * k := mul_pos hk hk
  have hd : ∀ (x y : K) (m : Pt K), dot (⟨-(k * y), k * x⟩ : Pt K) ⟨k * m.x, k * m.y⟩ = k * k * dot (⟨-y, x⟩ : Pt K) m := by
    intro x y m
    unfold dot
    simp only
    ring
  unfold computeIntersection fdiv
  simp only
  rw [uniform_vector ha hv, uniform_vector ha hb, stretch_dx hv hw, stretch_dy hv hw, hd, hd]
  simp only [gt_iff_lt, mul_pos_iff_of_pos_left hkk, beq_zero_mul hkk.ne', mul_div_mul_left _ _ hkk.ne']

theorem cbIntersections_rel (hk : 0 < k) {a a' b b' : Pt K} (ha : Q a a') (hb : Q b b') {poly poly' : List (Pt K)}
    (hp : List.Forall₂ Q poly poly') (i j : Int) :
    RelM Eq (cbIntersections a (toVector a b) poly i j) (cbIntersections a' (toVector a' b') poly' i j) := by
  unfold cbIntersections
  simp only
  rw [← hp.length_eq]
  refine (rdI_rel hp _).bind fun v v' hv => ?_
  refine (rdI_rel hp _).bind fun w w' hw => ?_
  refine (rdI_rel hp _).bind fun x x' hx => ?_
  refine (rdI_rel hp _).bind fun y y' hy => ?_
  rw [computeIntersection_rel hk ha hb hv hw, computeIntersection_rel hk ha hb hx hy]
  exact RelM.of_eq rfl

theorem toPoint_rel {a a' b b' : Pt K} (ha : Q a a') (hb : Q b b') (t : K) : Q (toPoint t a (toVector a b)) (toPoint t a' (toVector a' b')) := by
  rw [uniform_vector ha hb]
  unfold toPoint
  constructor
  · show _ = k * _ + x0
    simp only
    rw [stretch_x ha]
    ring
  · show _ = k * _ + y0
    simp only
    rw [stretch_y ha]
    ring

theorem cbFinish_rel {a a' b b' : Pt K} (ha : Q a a') (hb : Q b b') (p q : Bool) (t0 t1 : K) :
    OptRel (PairRel Q) (cbFinish a b (toVector a b) p q t0 t1) (cbFinish a' b' (toVector a' b') p q t0 t1) := by
  have hr : ∀ (c : Bool × Bool) (u v : K), OptRel (PairRel Q)
      (if (c.1 && c.2) = true then some (toPoint u a (toVector a b), toPoint v a (toVector a b))
        else if c.1 = true then some (toPoint u a (toVector a b), b) else if c.2 = true then some (a, toPoint v a (toVector a b)) else none)
      (if (c.1 && c.2) = true then some (toPoint u a' (toVector a' b'), toPoint v a' (toVector a' b'))
        else if c.1 = true then some (toPoint u a' (toVector a' b'), b') else if c.2 = true then some (a', toPoint v a' (toVector a' b'))
          else none) := by
    intro c u v
    split
    · exact ⟨toPoint_rel ha hb u, toPoint_rel ha hb v⟩
    split
    · exact ⟨toPoint_rel ha hb u, hb⟩
    split
    · exact ⟨ha, toPoint_rel ha hb v⟩
    · exact trivial
  unfold cbFinish
  simp only
  split
  · split
    · exact hr (_, _) _ _
    split
    · exact hr (_, _) _ _
    · exact trivial
  · exact hr (_, _) _ _

theorem pointInPolygonOrOnEdge_rel {tol tol' : K} {R : Bool → K → K → Prop} (hP : SimilarPoint R tol tol') {p p' : Pt K} (hp : PtRel R p p')
    {poly poly' : List (Pt K)} (hl : List.Forall₂ (PtRel R) poly poly') :
    pointInPolygonOrOnEdge p poly tol = pointInPolygonOrOnEdge p' poly' tol' := by
  unfold pointInPolygonOrOnEdge
  exact ((rdI_rel hl (-1)).bind fun v v' hv => RelM.of_eq (pointLoop_rel hP hp hl hv false)).eq

theorem cyrusBeck_rel (hk : 0 < k) {tol : K} {a a' b b' : Pt K} (ha : Q a a') (hb : Q b b') {poly poly' : List (Pt K)}
    (hp : List.Forall₂ Q poly poly') : RelM (OptRel (PairRel Q)) (cyrusBeck a b poly tol) (cyrusBeck a' b' poly' (k * tol)) := by
  unfold cyrusBeck
  simp only
  have hs : (toVector a' b').x = k * (toVector a b).x ∧ (toVector a' b').y = k * (toVector a b).y := by
    rw [uniform_vector ha hb]
    exact ⟨rfl, rfl⟩
  rw [hs.1, hs.2, beq_zero_mul hk.ne', beq_zero_mul hk.ne']
  split
  · exact trivial
  rw [← pointInPolygonOrOnEdge_rel (stretch_point hk) ha hp, ← pointInPolygonOrOnEdge_rel (stretch_point hk) hb hp]
  refine (RelM.of_eq rfl).bind fun p p' hpp => ?_
  subst hpp
  refine (RelM.of_eq rfl).bind fun q q' hqq => ?_
  subst hqq
  split
  · exact ⟨ha, hb⟩
  refine (rd_rel hp 0).bind fun v v' hv => ?_
  have hc : cross (toVector a' v') (toVector a' b') = k * k * cross (toVector a v) (toVector a b) := by
    rw [uniform_vector ha hv, uniform_vector ha hb, uniform_cross]
  rw [hc, ← hp.length_eq]
  refine (cbScan_rel hk ha hb hp _ _ _ _ _ _).bind fun r r' hr => ?_
  match r, r', hr with
  | .collinear r, .collinear r', hr => exact hr
  | .found n i j, .found n' i' j', hr =>
    obtain ⟨h1, h2, h3⟩ := hr
    subst h1 h2 h3
    simp only
    split
    · exact trivial
    · refine (cbIntersections_rel hk ha hb hp i j).bind ?_
      rintro ⟨t0, t1⟩ _ rfl
      exact cbFinish_rel ha hb p q t0 t1

theorem edgeFaceIntersect_rel (hk : 0 < k) {t t' : CellTree K} (h : TreeRel (StretchRel k k x0 y0) t t')
    (hm : k = 1 ∨ LimitIdle env t.data.bbCoords ∧ LimitIdle env t'.data.bbCoords) {a a' b b' : Pt K} (ha : Q a a') (hb : Q b b') (j : Nat) :
    RelM (IsectRel (StretchRel k k x0 y0)) (edgeFaceIntersect env t.data a b j) (edgeFaceIntersect env t'.data a' b' j) := by
  unfold edgeFaceIntersect
  have hrd : RelM (fun c c' => BoxRel (StretchRel k k x0 y0) c c' ∧ c ∈ t.data.bbCoords ∧ c' ∈ t'.data.bbCoords) (rd t.data.bbCoords j)
      (rd t'.data.bbCoords j) := by
    have := rd_rel h.bbCoords j
    match h1 : rd t.data.bbCoords j, h2 : rd t'.data.bbCoords j, this with
    | .ok c, .ok c', this => exact ⟨this, List.mem_of_getElem? (rd_eq_ok.1 h1), List.mem_of_getElem? (rd_eq_ok.1 h2)⟩
    | .error e, .error e', this => exact this
  refine hrd.bind fun c c' hc => ?_
  obtain ⟨hc, m1, m2⟩ := hc
  refine (stretch_clip hk hk ha hb hc).bind fun r r' hr => ?_
  match r, r', hr with
  | none, none, _ => exact ⟨rfl, trivial, trivial⟩
  | some _, some _, _ =>
    simp only
    rw [h.elements]
    refine (RelM.of_eq rfl).bind fun f f' hf => ?_
    subst hf
    refine (copyVertices_rel h.vertices f).bind fun p p' hp => ?_
    have htol : fmax env.minTol (env.tolFactor * fmax (c'.xmax - c'.xmin) (c'.ymax - c'.ymin)) =
        k * fmax env.minTol (env.tolFactor * fmax (c.xmax - c.xmin) (c.ymax - c.ymin)) := by
      obtain ⟨h1, h2, h3, h4⟩ := boxRel_iff.1 hc
      have e1 : c'.xmax - c'.xmin = k * (c.xmax - c.xmin) := by
        rw [show c'.xmin = k * c.xmin + x0 from h1, show c'.xmax = k * c.xmax + x0 from h2]
        ring
      have e2 : c'.ymax - c'.ymin = k * (c.ymax - c.ymin) := by
        rw [show c'.ymin = k * c.ymin + y0 from h3, show c'.ymax = k * c.ymax + y0 from h4]
        ring
      rcases hm with rfl | ⟨hm, hm'⟩
      · rw [e1, e2, one_mul, one_mul, one_mul]
      · have l1 := hm _ m1
        have l2 := hm' _ m2
        rw [e1, e2] at l2 ⊢
        simp only [fmax_eq]
        rw [max_eq_right l1, max_eq_right l2, ← mul_max_of_nonneg _ _ hk.le]
        ring
    rw [htol]
    refine (cyrusBeck_rel hk ha hb hp).bind fun r r' hr => ?_
    match r, r', hr with
    | none, none, _ => exact ⟨rfl, trivial, trivial⟩
    | some _, some _, hr => exact ⟨rfl, hr.1, hr.2⟩

end

end Celltree
