import Verif.Props.SurfaceSpheres
import Verif.Props.MeshVoronoi
import Verif.Props.FanCases
import Verif.Props.InteriorRun
import Verif.Model.Run

/-!
# C104: the Voronoi cells of the seeds reproduce the surface triangles
-/

namespace VoroCrust

open Classical

/-! ## Geometry -/

/-- `z` is a point of the triangle `a b c` (three coordinates). -/
def InTri3 (a b c z : Nat → ℝ) : Prop := ∃ u v w : ℝ, 0 ≤ u ∧ 0 ≤ v ∧ 0 ≤ w ∧ u + v + w = 1 ∧ ∀ d, d < 3 → z d = u * a d + v * b d + w * c d

/-- The difference of the squared distances from two points is affine. -/
theorem affine_gap {a b c z : Nat → ℝ} {u v w : ℝ} (hs : u + v + w = 1) (hz : ∀ d, d < 3 → z d = u * a d + v * b d + w * c d) (p t : Nat → ℝ) :
    euclid 3 z t ^ 2 - euclid 3 z p ^ 2 = u * (euclid 3 a t ^ 2 - euclid 3 a p ^ 2) + v * (euclid 3 b t ^ 2 - euclid 3 b p ^ 2) + w * (euclid 3 c t ^ 2 - euclid 3 c p ^ 2) := by
  simp only [euclid3_sq]
  rw [hz 0 (by norm_num), hz 1 (by norm_num), hz 2 (by norm_num)]
  obtain rfl : u = 1 - v - w := by linarith
  ring

/-- Normal vector of three centres, by coordinates. -/
theorem areaVec_at (a b c : Nat → ℝ) : areaVec (centreTri a b c) 0 = (b 1 - a 1) * (c 2 - a 2) - (b 2 - a 2) * (c 1 - a 1) ∧
    areaVec (centreTri a b c) 1 = (b 2 - a 2) * (c 0 - a 0) - (b 0 - a 0) * (c 2 - a 2) ∧
    areaVec (centreTri a b c) 2 = (b 0 - a 0) * (c 1 - a 1) - (b 1 - a 1) * (c 0 - a 0) := by
  refine ⟨?_, ?_, ?_⟩ <;>
  · simp only [areaVec, cross3, centreTri, toV3, Matrix.cons_val_zero, Matrix.cons_val_one, Matrix.cons_val_two, Matrix.head_cons, Matrix.tail_cons]
    norm_num

theorem normal_sq_pos {A : V3} (h : A ≠ 0) : 0 < A 0 * A 0 + A 1 * A 1 + A 2 * A 2 := by
  by_contra hc
  push Not at hc
  refine h (funext fun d => ?_)
  have h0 : A 0 = 0 := by nlinarith [mul_self_nonneg (A 0), mul_self_nonneg (A 1), mul_self_nonneg (A 2)]
  have h1 : A 1 = 0 := by nlinarith [mul_self_nonneg (A 0), mul_self_nonneg (A 1), mul_self_nonneg (A 2)]
  have h2 : A 2 = 0 := by nlinarith [mul_self_nonneg (A 0), mul_self_nonneg (A 1), mul_self_nonneg (A 2)]
  fin_cases d
  · exact h0
  · exact h1
  · exact h2

/-- A vector orthogonal to the plane of the centres is a multiple of the normal. -/
theorem orth_multiple {a b c w : Nat → ℝ} (hA : areaVec (centreTri a b c) ≠ 0) (h1 : ip 3 w (b - a) = 0) (h2 : ip 3 w (c - a) = 0) :
    ∃ s : ℝ, w 0 = s * areaVec (centreTri a b c) 0 ∧ w 1 = s * areaVec (centreTri a b c) 1 ∧ w 2 = s * areaVec (centreTri a b c) 2 := by
  have hp := normal_sq_pos hA
  obtain ⟨e0, e1, e2⟩ := areaVec_at a b c
  set A0 := areaVec (centreTri a b c) 0
  set A1 := areaVec (centreTri a b c) 1
  set A2 := areaVec (centreTri a b c) 2
  rw [ip3] at h1 h2
  simp only [Pi.sub_apply] at h1 h2
  -- w × A = 0
  have x0 : w 1 * A2 - w 2 * A1 = 0 := by rw [e1, e2]; linear_combination (b 0 - a 0) * h2 - (c 0 - a 0) * h1
  have x1 : w 2 * A0 - w 0 * A2 = 0 := by rw [e0, e2]; linear_combination (b 1 - a 1) * h2 - (c 1 - a 1) * h1
  have x2 : w 0 * A1 - w 1 * A0 = 0 := by rw [e0, e1]; linear_combination (b 2 - a 2) * h2 - (c 2 - a 2) * h1
  refine ⟨(w 0 * A0 + w 1 * A1 + w 2 * A2) / (A0 * A0 + A1 * A1 + A2 * A2), ?_, ?_, ?_⟩
  · rw [div_mul_eq_mul_div, eq_div_iff hp.ne']; linear_combination A1 * x2 - A2 * x1
  · rw [div_mul_eq_mul_div, eq_div_iff hp.ne']; linear_combination A2 * x0 - A0 * x2
  · rw [div_mul_eq_mul_div, eq_div_iff hp.ne']; linear_combination A0 * x1 - A1 * x0

/-- A point with the same distance from two mirror images is in the plane of the centres. -/
theorem in_plane {a b c u l z : Nat → ℝ} (hA : areaVec (centreTri a b c) ≠ 0) (hm : MirrorPair a b c u l) (hne : 0 < euclid 3 u l) (hz : euclid 3 z u = euclid 3 z l) :
    ∃ α β γ : ℝ, α + β + γ = 1 ∧ ∀ d, d < 3 → z d = α * a d + β * b d + γ * c d := by
  obtain ⟨m, w, ⟨s, t, hms⟩, h1, h2, hul⟩ := hm
  obtain ⟨r, w0, w1, w2⟩ := orth_multiple hA h1 h2
  have hp := normal_sq_pos hA
  obtain ⟨e0, e1, e2⟩ := areaVec_at a b c
  set A0 := areaVec (centreTri a b c) 0
  set A1 := areaVec (centreTri a b c) 1
  set A2 := areaVec (centreTri a b c) 2
  have hr : r ≠ 0 := by
    rintro rfl
    have : euclid 3 u l ^ 2 = 0 := by
      rw [euclid3_sq, (hul 0 (by norm_num)).1, (hul 1 (by norm_num)).1, (hul 2 (by norm_num)).1, (hul 0 (by norm_num)).2, (hul 1 (by norm_num)).2, (hul 2 (by norm_num)).2, w0, w1, w2]
      ring
    have := pow_eq_zero_iff (n := 2) (by norm_num) |>.1 this
    linarith
  -- the point is orthogonal to the normal
  have hq : (z 0 - a 0) * A0 + (z 1 - a 1) * A1 + (z 2 - a 2) * A2 = 0 := by
    have e : euclid 3 z u ^ 2 = euclid 3 z l ^ 2 := by rw [hz]
    rw [euclid3_sq, euclid3_sq, (hul 0 (by norm_num)).1, (hul 1 (by norm_num)).1, (hul 2 (by norm_num)).1, (hul 0 (by norm_num)).2, (hul 1 (by norm_num)).2, (hul 2 (by norm_num)).2, w0, w1, w2] at e
    have hm0 : (m 0 - a 0) * A0 + (m 1 - a 1) * A1 + (m 2 - a 2) * A2 = 0 := by
      rw [hms 0 (by norm_num), hms 1 (by norm_num), hms 2 (by norm_num), e0, e1, e2]; ring
    have : r * ((z 0 - a 0) * A0 + (z 1 - a 1) * A1 + (z 2 - a 2) * A2) = 0 := by linear_combination (-1 / 4) * e + r * hm0
    exact (mul_eq_zero.1 this).resolve_left hr
  -- coordinates in the plane
  obtain ⟨N, hN⟩ : ∃ N, N = A0 * A0 + A1 * A1 + A2 * A2 := ⟨_, rfl⟩
  rw [← hN] at hp
  obtain ⟨B, hB⟩ : ∃ B, B = ((z 1 - a 1) * (c 2 - a 2) - (z 2 - a 2) * (c 1 - a 1)) * A0 + ((z 2 - a 2) * (c 0 - a 0) - (z 0 - a 0) * (c 2 - a 2)) * A1 +
    ((z 0 - a 0) * (c 1 - a 1) - (z 1 - a 1) * (c 0 - a 0)) * A2 := ⟨_, rfl⟩
  obtain ⟨G, hG⟩ : ∃ G, G = ((b 1 - a 1) * (z 2 - a 2) - (b 2 - a 2) * (z 1 - a 1)) * A0 + ((b 2 - a 2) * (z 0 - a 0) - (b 0 - a 0) * (z 2 - a 2)) * A1 +
    ((b 0 - a 0) * (z 1 - a 1) - (b 1 - a 1) * (z 0 - a 0)) * A2 := ⟨_, rfl⟩
  refine ⟨1 - B / N - G / N, B / N, G / N, by ring, fun d hd => ?_⟩
  have key : (z d - a d) * N = B * (b d - a d) + G * (c d - a d) := by
    rw [hN, hB, hG]
    interval_cases d
    · rw [e0, e1, e2] at hq ⊢; linear_combination ((b 1 - a 1) * (c 2 - a 2) - (b 2 - a 2) * (c 1 - a 1)) * hq
    · rw [e0, e1, e2] at hq ⊢; linear_combination ((b 2 - a 2) * (c 0 - a 0) - (b 0 - a 0) * (c 2 - a 2)) * hq
    · rw [e0, e1, e2] at hq ⊢; linear_combination ((b 0 - a 0) * (c 1 - a 1) - (b 1 - a 1) * (c 0 - a 0)) * hq
  field_simp
  linear_combination key

/-- Two mirror images on three spheres are the only points on them. -/
theorem two_points {a b c u l x : Nat → ℝ} (hA : areaVec (centreTri a b c) ≠ 0) (hm : MirrorPair a b c u l) (ha : euclid 3 x a = euclid 3 u a) (hb : euclid 3 x b = euclid 3 u b)
    (hc : euclid 3 x c = euclid 3 u c) : (∀ d, d < 3 → x d = u d) ∨ ∀ d, d < 3 → x d = l d := by
  obtain ⟨m, w, ⟨s, t, hms⟩, h1, h2, hul⟩ := hm
  obtain ⟨r, w0, w1, w2⟩ := orth_multiple hA h1 h2
  have ha' : euclid 3 x a ^ 2 = euclid 3 u a ^ 2 := by rw [ha]
  have hb' : euclid 3 x b ^ 2 = euclid 3 u b ^ 2 := by rw [hb]
  have hc' : euclid 3 x c ^ 2 = euclid 3 u c ^ 2 := by rw [hc]
  simp only [euclid3_sq] at ha' hb' hc'
  obtain ⟨r', v0, v1, v2⟩ := orth_multiple (w := x - u) hA (by rw [ip3]; simp only [Pi.sub_apply]; linear_combination (1 / 2) * ha' - (1 / 2) * hb')
    (by rw [ip3]; simp only [Pi.sub_apply]; linear_combination (1 / 2) * ha' - (1 / 2) * hc')
  simp only [Pi.sub_apply] at v0 v1 v2
  have hp := normal_sq_pos hA
  obtain ⟨e0, e1, e2⟩ := areaVec_at a b c
  set A0 := areaVec (centreTri a b c) 0
  set A1 := areaVec (centreTri a b c) 1
  set A2 := areaVec (centreTri a b c) 2
  have hm0 : (m 0 - a 0) * A0 + (m 1 - a 1) * A1 + (m 2 - a 2) * A2 = 0 := by
    rw [hms 0 (by norm_num), hms 1 (by norm_num), hms 2 (by norm_num), e0, e1, e2]; ring
  obtain ⟨u0, l0⟩ := hul 0 (by norm_num)
  obtain ⟨u1, l1⟩ := hul 1 (by norm_num)
  obtain ⟨u2, l2⟩ := hul 2 (by norm_num)
  have x0 : x 0 = m 0 + (r + r') * A0 := by linear_combination v0 + u0 + w0
  have x1 : x 1 = m 1 + (r + r') * A1 := by linear_combination v1 + u1 + w1
  have x2 : x 2 = m 2 + (r + r') * A2 := by linear_combination v2 + u2 + w2
  rw [x0, x1, x2, u0, u1, u2, w0, w1, w2] at ha'
  have : r' * (r' + 2 * r) * (A0 * A0 + A1 * A1 + A2 * A2) = 0 := by linear_combination ha' - 2 * r' * hm0
  rcases mul_eq_zero.1 ((mul_eq_zero.1 this).resolve_right hp.ne') with hr | hr
  · left
    intro d hd
    interval_cases d
    · rw [x0, u0, w0, hr]; ring
    · rw [x1, u1, w1, hr]; ring
    · rw [x2, u2, w2, hr]; ring
  · right
    have hr' : r + r' = -r := by linarith
    intro d hd
    interval_cases d
    · rw [x0, l0, w0, hr']; ring
    · rw [x1, l1, w1, hr']; ring
    · rw [x2, l2, w2, hr']; ring

/-! ## Seeds -/

/-- No sphere comes within `1e-10` of a common point of three others without containing it. -/
def NoGrazing (Z : SphereSet) : Prop :=
  ∀ i j k s x, i < Z.total → j < Z.total → k < Z.total → s < Z.total → i ≠ j → i ≠ k → j ≠ k → s ≠ i → s ≠ j → s ≠ k → OnThree Z i j k x →
    Z.at s 3 ≤ euclid 3 x (Z.at s) → Z.at s 3 + 1e-10 ≤ euclid 3 x (Z.at s)

/-- `s` is one of the spheres of the seed. -/
def SeedAttr.Has (a : SeedAttr) (s : Nat) : Prop := s = a.s1 ∨ s = a.s2 ∨ s = a.s3

theorem SphereSet.surf_lt {Z : SphereSet} {i : Nat} (h : i < Z.S.num) : i < Z.total := by unfold SphereSet.total; omega

theorem SeedPair.away {Z : SphereSet} {face : Nat → Fin 3 → V3} {u l : Nat → ℝ} {i j k : Nat} (h : SeedPair Z face u l i j k) (hg : NoGrazing Z) {s : Nat} (hs : s < Z.total)
    (h1 : s ≠ i) (h2 : s ≠ j) (h3 : s ≠ k) : Z.at s 3 + 1e-10 ≤ euclid 3 u (Z.at s) ∧ Z.at s 3 + 1e-10 ≤ euclid 3 l (Z.at s) := by
  obtain ⟨a1, a2, a3⟩ := h.later
  obtain ⟨f1, f2⟩ := h.free s hs h1 h2 h3
  exact ⟨hg i j k s u (SphereSet.surf_lt h.surf) h.valid.1 h.valid.2 hs a1.ne a2.ne a3 h1 h2 h3 h.upper f1, hg i j k s l (SphereSet.surf_lt h.surf) h.valid.1 h.valid.2 hs a1.ne a2.ne a3 h1 h2 h3 h.lower f2⟩

/-- What the theorem uses of the stored seeds. -/
structure StoredSeeds (Z : SphereSet) (face : Nat → Fin 3 → V3) (up lo : SeedTree) : Prop where
  upLen : up.attr.length = up.tree.num
  loLen : lo.attr.length = lo.tree.num
  ok : ∀ (q : Nat) (a : SeedAttr), (mergeSeedAttrs up lo)[q]? = some a → MergedSeedOK Z face up lo q a
  apart : ∀ p q, p < up.tree.num + lo.tree.num → q < up.tree.num + lo.tree.num → p ≠ q → (p < up.tree.num ↔ q < up.tree.num) → 1e-10 ≤ euclid 3 (mergedSeed up lo p) (mergedSeed up lo q)

section
variable {Z : SphereSet} {face : Nat → Fin 3 → V3} {up lo : SeedTree}

/-- The spheres of a seed. -/
structure SeedSpheres (Z : SphereSet) (a : SeedAttr) (x : Nat → ℝ) : Prop where
  ne12 : a.s1 ≠ a.s2
  ne13 : a.s1 ≠ a.s3
  ne23 : a.s2 ≠ a.s3
  valid : ∀ s, a.Has s → s < Z.total
  surf : a.s1 < Z.S.num
  on : ∀ s, a.Has s → euclid 3 x (Z.at s) = Z.at s 3
  off : ∀ s, s < Z.total → ¬ a.Has s → Z.at s 3 + 1e-10 ≤ euclid 3 x (Z.at s)

theorem SeedPair.spheres {u l : Nat → ℝ} {a : SeedAttr} (h : SeedPair Z face u l a.s1 a.s2 a.s3) (hg : NoGrazing Z) : SeedSpheres Z a u ∧ SeedSpheres Z a l := by
  have hv : ∀ s, a.Has s → s < Z.total := by
    rintro s (rfl | rfl | rfl)
    · exact SphereSet.surf_lt h.surf
    · exact h.valid.1
    · exact h.valid.2
  have hn : ∀ s, ¬ a.Has s → s ≠ a.s1 ∧ s ≠ a.s2 ∧ s ≠ a.s3 := fun s hs => ⟨fun e => hs (.inl e), fun e => hs (.inr (.inl e)), fun e => hs (.inr (.inr e))⟩
  refine ⟨⟨h.later.1.ne, h.later.2.1.ne, h.later.2.2, hv, h.surf, ?_, fun s hs hs' => ?_⟩, ⟨h.later.1.ne, h.later.2.1.ne, h.later.2.2, hv, h.surf, ?_, fun s hs hs' => ?_⟩⟩
  · rintro s (rfl | rfl | rfl)
    · exact h.upper.1
    · exact h.upper.2.1
    · exact h.upper.2.2
  · obtain ⟨n1, n2, n3⟩ := hn s hs'
    exact (h.away hg hs n1 n2 n3).1
  · rintro s (rfl | rfl | rfl)
    · exact h.lower.1
    · exact h.lower.2.1
    · exact h.lower.2.2
  · obtain ⟨n1, n2, n3⟩ := hn s hs'
    exact (h.away hg hs n1 n2 n3).2

/-- Points of different triples are apart. -/
theorem SeedSpheres.same {a b : SeedAttr} {x y : Nat → ℝ} (ha : SeedSpheres Z a x) (hb : SeedSpheres Z b y) (hd : euclid 3 x y < 1e-10) : ∀ s, a.Has s ↔ b.Has s := by
  have h1 : ∀ s, b.Has s → a.Has s := by
    intro s hs
    by_contra hn
    have := ha.off s (hb.valid s hs) hn
    have h2 := hb.on s hs
    have := euclid_triangle 3 x y (Z.at s)
    linarith
  intro s
  refine ⟨fun hs => ?_, h1 s⟩
  have e1 := h1 b.s1 (.inl rfl)
  have e2 := h1 b.s2 (.inr (.inl rfl))
  have e3 := h1 b.s3 (.inr (.inr rfl))
  have n1 := hb.ne12
  have n2 := hb.ne13
  have n3 := hb.ne23
  unfold SeedAttr.Has at *
  omega

theorem SeedAttr.has_iff {a : SeedAttr} {s t v : Nat} (hs : a.Has s) (ht : a.Has t) (hv : a.Has v) (hst : s ≠ t) (hsv : s ≠ v) (htv : t ≠ v)
    (y : Nat) : a.Has y ↔ y = s ∨ y = t ∨ y = v := by
  unfold SeedAttr.Has at *
  rcases hs with rfl | rfl | rfl <;> rcases ht with rfl | rfl | rfl <;> rcases hv with rfl | rfl | rfl <;> first | (exact absurd rfl ‹_ ≠ _›) | tauto

/-- A pair: both seeds lie on the same three spheres and are mirror images. -/
structure ExactPair (Z : SphereSet) (face : Nat → Fin 3 → V3) (up lo : SeedTree) (q : Nat) (a : SeedAttr) : Prop where
  seed : SeedSpheres Z a (mergedSeed up lo q)
  partner : SeedSpheres Z a (mergedSeed up lo a.pair)
  lt : a.pair < up.tree.num + lo.tree.num
  side : q < up.tree.num ↔ up.tree.num ≤ a.pair
  proper : areaVec (centreTri (Z.at a.s1) (Z.at a.s2) (Z.at a.s3)) ≠ 0
  mirror : MirrorPair (Z.at a.s1) (Z.at a.s2) (Z.at a.s3) (mergedSeed up lo q) (mergedSeed up lo a.pair)
  apart : 2e-10 ≤ euclid 3 (mergedSeed up lo q) (mergedSeed up lo a.pair)
  attr : ∃ b, (mergeSeedAttrs up lo)[a.pair]? = some b ∧ ∀ s, a.Has s ↔ b.Has s

theorem MirrorPair.symm' {a b c u l : Nat → ℝ} (h : MirrorPair a b c u l) : MirrorPair a b c l u := by
  obtain ⟨m, w, hm, h1, h2, h3⟩ := h
  have neg : ∀ v : Nat → ℝ, ip 3 (fun d => -w d) v = -ip 3 w v := fun v => by rw [ip3, ip3]; ring
  refine ⟨m, fun d => -w d, hm, by rw [neg, h1, neg_zero], by rw [neg, h2, neg_zero], fun d hd => ⟨?_, ?_⟩⟩
  · rw [(h3 d hd).2]; ring
  · rw [(h3 d hd).1]; ring

theorem MirrorPair.congr {a b c u l l' : Nat → ℝ} (h : MirrorPair a b c u l) (hl : ∀ d, d < 3 → l' d = l d) : MirrorPair a b c u l' := by
  obtain ⟨m, w, hm, h1, h2, h3⟩ := h
  exact ⟨m, w, hm, h1, h2, fun d hd => ⟨(h3 d hd).1, by rw [hl d hd, (h3 d hd).2]⟩⟩

theorem StoredSeeds.len (h : StoredSeeds Z face up lo) : (mergeSeedAttrs up lo).length = up.tree.num + lo.tree.num := by
  simp [mergeSeedAttrs, h.upLen, h.loLen]

theorem StoredSeeds.exact (h : StoredSeeds Z face up lo) (hg : NoGrazing Z) {q : Nat} {a : SeedAttr} (ha : (mergeSeedAttrs up lo)[q]? = some a) : ExactPair Z face up lo q a := by
  have hq := h.ok q a ha
  obtain ⟨b, hb⟩ : ∃ b, (mergeSeedAttrs up lo)[a.pair]? = some b := ⟨_, List.getElem?_eq_getElem (by rw [h.len]; exact hq.exists_partner)⟩
  have hqb := h.ok _ b hb
  obtain ⟨y, hu, hl, hd⟩ := hq.mirror
  -- the seed and its image
  obtain ⟨sx, sy, hpr, hmi, hap⟩ : SeedSpheres Z a (mergedSeed up lo q) ∧ SeedSpheres Z a y ∧ areaVec (centreTri (Z.at a.s1) (Z.at a.s2) (Z.at a.s3)) ≠ 0 ∧
      MirrorPair (Z.at a.s1) (Z.at a.s2) (Z.at a.s3) (mergedSeed up lo q) y ∧ 2e-10 ≤ euclid 3 (mergedSeed up lo q) y := by
    by_cases hlt : q < up.tree.num
    · obtain ⟨s1, s2⟩ := (hu hlt).spheres hg
      exact ⟨s1, s2, (hu hlt).proper, (hu hlt).mirror, (hu hlt).apart⟩
    · obtain ⟨s1, s2⟩ := (hl (not_lt.1 hlt)).spheres hg
      exact ⟨s2, s1, (hl (not_lt.1 hlt)).proper, (hl (not_lt.1 hlt)).mirror.symm', by rw [euclid_comm]; exact (hl (not_lt.1 hlt)).apart⟩
  have sb : SeedSpheres Z b (mergedSeed up lo a.pair) := by
    obtain ⟨z, hu', hl', -⟩ := hqb.mirror
    by_cases hlt : a.pair < up.tree.num
    · exact ((hu' hlt).spheres hg).1
    · exact ((hl' (not_lt.1 hlt)).spheres hg).2
  have hsame := sy.same sb hd
  have son : ∀ s, a.Has s → euclid 3 (mergedSeed up lo a.pair) (Z.at s) = Z.at s 3 := fun s hs => sb.on s ((hsame s).1 hs)
  have hpt : ∀ d, d < 3 → mergedSeed up lo a.pair d = y d := by
    rcases two_points hpr hmi ((son _ (.inl rfl)).trans (sx.on _ (.inl rfl)).symm) ((son _ (.inr (.inl rfl))).trans (sx.on _ (.inr (.inl rfl))).symm)
      ((son _ (.inr (.inr rfl))).trans (sx.on _ (.inr (.inr rfl))).symm) with e | e
    · exfalso
      rw [euclid_congr3 (fun _ _ => rfl) e, euclid_comm] at hd
      linarith
    · exact e
  refine ⟨sx, ?_, hq.exists_partner, hq.other_side, hpr, hmi.congr hpt, by rw [euclid_congr3 (fun _ _ => rfl) hpt]; exact hap, b, hb, hsame⟩
  exact ⟨sx.ne12, sx.ne13, sx.ne23, sx.valid, sx.surf, son, fun s hs hs' => sb.off s hs fun hh => hs' ((hsame s).2 hh)⟩

/-- The pair of seeds of three spheres is determined. -/
theorem SeedPair.unique {u l u' l' : Nat → ℝ} {i j k i' j' k' : Nat} (h : SeedPair Z face u l i j k) (h' : SeedPair Z face u' l' i' j' k')
    (hs : ∀ s, (s = i ∨ s = j ∨ s = k) ↔ (s = i' ∨ s = j' ∨ s = k')) : (∀ d, d < 3 → u' d = u d) ∧ ∀ d, d < 3 → l' d = l d := by
  obtain ⟨a1, a2, a3⟩ := h.later
  obtain ⟨b1, b2, b3⟩ := h'.later
  have c1 := hs i
  have c2 := hs j
  have c3 := hs k
  have c4 := hs i'
  have hi : i' = i := by omega
  have hjk : (j' = j ∧ k' = k) ∨ (j' = k ∧ k' = j) := by omega
  subst hi
  have onu : OnThree Z i' j k u' := by
    obtain ⟨o1, o2, o3⟩ := h'.upper
    rcases hjk with ⟨rfl, rfl⟩ | ⟨rfl, rfl⟩
    · exact ⟨o1, o2, o3⟩
    · exact ⟨o1, o3, o2⟩
  have onl : OnThree Z i' j k l' := by
    obtain ⟨o1, o2, o3⟩ := h'.lower
    rcases hjk with ⟨rfl, rfl⟩ | ⟨rfl, rfl⟩
    · exact ⟨o1, o2, o3⟩
    · exact ⟨o1, o3, o2⟩
  have tu := two_points h.proper h.mirror (onu.1.trans h.upper.1.symm) (onu.2.1.trans h.upper.2.1.symm) (onu.2.2.trans h.upper.2.2.symm)
  have tl := two_points h.proper h.mirror (onl.1.trans h.upper.1.symm) (onl.2.1.trans h.upper.2.1.symm) (onl.2.2.trans h.upper.2.2.symm)
  have hap := h'.apart
  have same : ∀ p : Nat → ℝ, (∀ d, d < 3 → u' d = p d) → (∀ d, d < 3 → l' d = p d) → False := fun p h1 h2 => by
    rw [euclid_congr3 h1 h2, euclid_self] at hap
    norm_num at hap
  rcases tu with tu | tu <;> rcases tl with tl | tl
  · exact (same u tu tl).elim
  · exact ⟨tu, tl⟩
  · exfalso
    have hrev : ∀ q : V3, dot3 q (toV3 (u' - l')) = -dot3 q (toV3 (u - l)) := fun q => by
      simp only [dot3, toV3, Pi.sub_apply, tu _ (Fin.isLt _), tl _ (Fin.isLt _)]
      ring
    rcases hjk with ⟨rfl, rfl⟩ | ⟨rfl, rfl⟩
    · have o1 := h.orient
      have o2 := h'.orient
      rw [hrev] at o2
      obtain ⟨m, w, -, h1, h2, hul⟩ := h.mirror
      obtain ⟨r, w0, w1, w2⟩ := orth_multiple h.proper h1 h2
      have hp := normal_sq_pos h.proper
      have e0 := hul 0 (by norm_num)
      have e1 := hul 1 (by norm_num)
      have e2 := hul 2 (by norm_num)
      have hd : dot3 (areaVec (centreTri (Z.at i') (Z.at j') (Z.at k'))) (toV3 (u - l)) = 2 * r * (areaVec (centreTri (Z.at i') (Z.at j') (Z.at k')) 0 * areaVec (centreTri (Z.at i') (Z.at j') (Z.at k')) 0 +
          areaVec (centreTri (Z.at i') (Z.at j') (Z.at k')) 1 * areaVec (centreTri (Z.at i') (Z.at j') (Z.at k')) 1 +
          areaVec (centreTri (Z.at i') (Z.at j') (Z.at k')) 2 * areaVec (centreTri (Z.at i') (Z.at j') (Z.at k')) 2) := by
        have f0 : toV3 (u - l) 0 = 2 * w 0 := by show u 0 - l 0 = _; rw [e0.1, e0.2]; ring
        have f1 : toV3 (u - l) 1 = 2 * w 1 := by show u 1 - l 1 = _; rw [e1.1, e1.2]; ring
        have f2 : toV3 (u - l) 2 = 2 * w 2 := by show u 2 - l 2 = _; rw [e2.1, e2.2]; ring
        unfold dot3
        rw [f0, f1, f2, w0, w1, w2]; ring
      have hz : dot3 (areaVec (centreTri (Z.at i') (Z.at j') (Z.at k'))) (toV3 (u - l)) = 0 := by linarith
      rw [hd] at hz
      have hr : r = 0 := by
        rcases mul_eq_zero.1 hz with h | h
        · linarith
        · exact absurd h hp.ne'
      subst hr
      have hul' : ∀ d, d < 3 → u d = l d := fun d hd => by
        have hw : w d = 0 := by interval_cases d <;> simp_all
        rw [(hul d hd).1, (hul d hd).2, hw]; ring
      have := h.apart
      rw [euclid_congr3 hul' (fun _ _ => rfl), euclid_self] at this
      norm_num at this
    · rcases lt_or_gt_of_ne a3 with hlt | hlt
      · have s1 := h.side
        have s2 := h'.turned hlt
        rw [hrev] at s2
        linarith
      · have s1 := h.turned hlt
        have s2 := h'.side
        rw [hrev] at s2
        linarith
  · exact (same l tu tl).elim

/-- Seeds of the same three spheres on the same side are the same. -/
theorem StoredSeeds.unique (h : StoredSeeds Z face up lo) {p q : Nat} {a b : SeedAttr} (ha : (mergeSeedAttrs up lo)[p]? = some a)
    (hb : (mergeSeedAttrs up lo)[q]? = some b) (hs : ∀ s, a.Has s ↔ b.Has s) (hside : p < up.tree.num ↔ q < up.tree.num) : p = q := by
  have hp : p < up.tree.num + lo.tree.num := by rw [← h.len]; exact (List.getElem?_eq_some_iff.1 ha).1
  have hq : q < up.tree.num + lo.tree.num := by rw [← h.len]; exact (List.getElem?_eq_some_iff.1 hb).1
  by_contra hne
  have hap := h.apart p q hp hq hne hside
  obtain ⟨y, hu, hl, -⟩ := (h.ok p a ha).mirror
  obtain ⟨y', hu', hl', -⟩ := (h.ok q b hb).mirror
  by_cases hlt : p < up.tree.num
  · rw [euclid_congr3 (fun _ _ => rfl) ((hu hlt).unique (hu' (hside.1 hlt)) hs).1, euclid_self] at hap
    norm_num at hap
  · have hlt' : ¬ q < up.tree.num := fun h => hlt (hside.2 h)
    rw [euclid_congr3 (fun _ _ => rfl) ((hl (not_lt.1 hlt)).unique (hl' (not_lt.1 hlt')) hs).2, euclid_self] at hap
    norm_num at hap

/-- Another pair has the spheres `s`, `t` but not `v`. -/
def SharedEdge (up lo : SeedTree) (s t v : Nat) : Prop := ∃ (p : Nat) (b : SeedAttr), (mergeSeedAttrs up lo)[p]? = some b ∧ b.Has s ∧ b.Has t ∧ ¬ b.Has v

theorem StoredSeeds.shared (h : StoredSeeds Z face up lo) (hg : NoGrazing Z) (hw : Watertight Z.S.num (lo.attr.map fun a => [a.s1, a.s2, a.s3])) {q : Nat} {a : SeedAttr}
    (ha : (mergeSeedAttrs up lo)[q]? = some a) {s t v : Nat} (hs : a.Has s) (ht : a.Has t) (hv : a.Has v) (hst : s ≠ t) (hsv : s ≠ v) (htv : t ≠ v) (hsurf : s < Z.S.num) :
    SharedEdge up lo s t v := by
  have hlow : ∀ (k : Nat) (b : SeedAttr), lo.attr[k]? = some b → (mergeSeedAttrs up lo)[up.tree.num + k]? = some b := by
    intro k b hk
    have hlen : (up.attr.map fun a => ({ a with pair := a.pair + up.tree.num } : SeedAttr)).length = up.tree.num := by simp [h.upLen]
    rw [mergeSeedAttrs, List.getElem?_append_right (by rw [hlen]; omega), hlen, Nat.add_sub_cancel_left]; exact hk
  have hlow' : ∀ (p : Nat) (b : SeedAttr), up.tree.num ≤ p → (mergeSeedAttrs up lo)[p]? = some b → ∃ k : Nat, lo.attr[k]? = some b := by
    intro p b hp hb
    have hlen : (up.attr.map fun a => ({ a with pair := a.pair + up.tree.num } : SeedAttr)).length = up.tree.num := by simp [h.upLen]
    rw [mergeSeedAttrs, List.getElem?_append_right (by rw [hlen]; omega), hlen] at hb
    exact ⟨_, hb⟩
  obtain ⟨k, c, hk, hc⟩ : ∃ (k : Nat) (c : SeedAttr), lo.attr[k]? = some c ∧ ∀ s, a.Has s ↔ c.Has s := by
    by_cases hlt : q < up.tree.num
    · have he := h.exact hg ha
      obtain ⟨b, hb, hbs⟩ := he.attr
      obtain ⟨k, hk⟩ := hlow' _ b (he.side.1 hlt) hb
      exact ⟨k, b, hk, hbs⟩
    · obtain ⟨k, hk⟩ := hlow' _ a (not_lt.1 hlt) ha
      exact ⟨k, a, hk, fun _ => Iff.rfl⟩
  have hmem : ∀ (b : SeedAttr) (x : Nat), x ∈ [b.s1, b.s2, b.s3] ↔ b.Has x := fun b x => by simp [SeedAttr.Has]
  have hcount := hw [c.s1, c.s2, c.s3] (List.mem_map.2 ⟨c, List.mem_of_getElem? hk, rfl⟩) s ((hmem c s).2 ((hc s).1 hs)) t ((hmem c t).2 ((hc t).1 ht)) hst hsurf
  rw [List.countP_map] at hcount
  obtain ⟨n, m, b, d, hnm, hb, hd, pb, pd, -⟩ := countP_two _ _ hcount
  simp only [Function.comp, Bool.and_eq_true, decide_eq_true_eq, hmem] at pb pd
  have key : ∀ (n : Nat) (b : SeedAttr), lo.attr[n]? = some b → n ≠ k → b.Has s ∧ b.Has t → SharedEdge up lo s t v := by
    intro n b hb hn ⟨hbs, hbt⟩
    refine ⟨_, b, hlow n b hb, hbs, hbt, fun hbv => hn ?_⟩
    have hcs := (hc s).1 hs
    have hct := (hc t).1 ht
    have hcv := (hc v).1 hv
    have := h.unique (hlow n b hb) (hlow k c hk) (fun x => (SeedAttr.has_iff hbs hbt hbv hst hsv htv x).trans (SeedAttr.has_iff hcs hct hcv hst hsv htv x).symm) (by omega)
    omega
  by_cases hn : n = k
  · exact key m d hd (by omega) pd
  · exact key n b hb hn pb

/-- The final seeds: the seed pairs come first, all others are outside the spheres of `a`, up to `ε`. -/
structure SeedsAround (Z : SphereSet) (up lo : SeedTree) (xs : List SeedRec) (ε : ℝ) (a : SeedAttr) : Prop where
  le : up.tree.num + lo.tree.num ≤ xs.length
  first : ∀ q, q < up.tree.num + lo.tree.num → ∀ d, d < 3 → seedPos xs q d = mergedSeed up lo q d
  rest : ∀ q, up.tree.num + lo.tree.num ≤ q → q < xs.length → ∀ s, a.Has s → Z.at s 3 - ε ≤ euclid 3 (seedPos xs q) (Z.at s)

/-- Every point of the triangle is as far from both seeds of the pair, and no other seed is nearer, up to `ε`. -/
theorem triangle_nearest (h : StoredSeeds Z face up lo) (hg : NoGrazing Z) {q : Nat} {a : SeedAttr} (ha : (mergeSeedAttrs up lo)[q]? = some a) {xs : List SeedRec} {ε R : ℝ} (hε : 0 ≤ ε)
    (hx : SeedsAround Z up lo xs ε a) (hR : ∀ s, a.Has s → Z.at s 3 ≤ R) {z : Nat → ℝ} (hz : InTri3 (Z.at a.s1) (Z.at a.s2) (Z.at a.s3) z) :
    euclid 3 z (seedPos xs q) = euclid 3 z (seedPos xs a.pair) ∧ ∀ y, y < xs.length → euclid 3 z (seedPos xs q) ^ 2 ≤ euclid 3 z (seedPos xs y) ^ 2 + 2 * ε * R := by
  have he := h.exact hg ha
  have hq : q < up.tree.num + lo.tree.num := by rw [← h.len]; exact (List.getElem?_eq_some_iff.1 ha).1
  obtain ⟨α, β, γ, a0, b0, c0, hsum, hzd⟩ := hz
  have hpos : ∀ p, p < up.tree.num + lo.tree.num → ∀ c, euclid 3 c (seedPos xs p) = euclid 3 (mergedSeed up lo p) c := fun p hp c => by
    rw [euclid_comm, euclid_congr3 (hx.first p hp) (fun _ _ => rfl)]
  have on : ∀ s, a.Has s → euclid 3 (Z.at s) (seedPos xs q) = Z.at s 3 := fun s hs => by rw [hpos q hq, he.seed.on s hs]
  have on' : ∀ s, a.Has s → euclid 3 (Z.at s) (seedPos xs a.pair) = Z.at s 3 := fun s hs => by rw [hpos _ he.lt, he.partner.on s hs]
  have i1 : a.Has a.s1 := .inl rfl
  have i2 : a.Has a.s2 := .inr (.inl rfl)
  have i3 : a.Has a.s3 := .inr (.inr rfl)
  constructor
  · have := affine_gap hsum hzd (seedPos xs q) (seedPos xs a.pair)
    rw [on _ i1, on _ i2, on _ i3, on' _ i1, on' _ i2, on' _ i3] at this
    have e : euclid 3 z (seedPos xs q) ^ 2 = euclid 3 z (seedPos xs a.pair) ^ 2 := by linarith
    exact (sq_eq_sq₀ (euclid_nonneg _ _ _) (euclid_nonneg _ _ _)).1 e
  · intro y hy
    have key : ∀ s, a.Has s → -(2 * ε * R) ≤ euclid 3 (Z.at s) (seedPos xs y) ^ 2 - euclid 3 (Z.at s) (seedPos xs q) ^ 2 := by
      intro s hs
      rw [on s hs]
      have hr := hR s hs
      have r0 : 0 ≤ Z.at s 3 := by rw [← on s hs]; exact euclid_nonneg _ _ _
      have d0 := euclid_nonneg 3 (Z.at s) (seedPos xs y)
      have hd : Z.at s 3 - ε ≤ euclid 3 (Z.at s) (seedPos xs y) := by
        by_cases hyn : y < up.tree.num + lo.tree.num
        · rw [hpos y hyn]
          obtain ⟨b, hb⟩ : ∃ b, (mergeSeedAttrs up lo)[y]? = some b := ⟨_, List.getElem?_eq_getElem (by rw [h.len]; exact hyn)⟩
          have sb := (h.exact hg hb).seed
          by_cases hbs : b.Has s
          · rw [sb.on s hbs]; linarith
          · have := sb.off s (he.seed.valid s hs) hbs
            linarith
        · rw [euclid_comm]; exact hx.rest y (not_lt.1 hyn) hy s hs
      have hεr : ε * Z.at s 3 ≤ ε * R := mul_le_mul_of_nonneg_left hr hε
      by_cases hc : ε ≤ Z.at s 3
      · nlinarith
      · nlinarith
    have := affine_gap hsum hzd (seedPos xs q) (seedPos xs y)
    have k1 := mul_le_mul_of_nonneg_left (key _ i1) a0
    have k2 := mul_le_mul_of_nonneg_left (key _ i2) b0
    have k3 := mul_le_mul_of_nonneg_left (key _ i3) c0
    have e : α * -(2 * ε * R) + β * -(2 * ε * R) + γ * -(2 * ε * R) = -(2 * ε * R) := by rw [← add_mul, ← add_mul, hsum, one_mul]
    linarith

/-- The common face of the two cells lies in the triangle. -/
theorem face_in_triangle (h : StoredSeeds Z face up lo) (hg : NoGrazing Z) (hw : Watertight Z.S.num (lo.attr.map fun a => [a.s1, a.s2, a.s3])) {q : Nat} {a : SeedAttr}
    (ha : (mergeSeedAttrs up lo)[q]? = some a) (hedge : a.s2 < Z.S.num ∨ a.s3 < Z.S.num ∨ SharedEdge up lo a.s2 a.s3 a.s1) {xs : List SeedRec} {ε : ℝ}
    (hx : SeedsAround Z up lo xs ε a) {z : Nat → ℝ} (hz : CommonFace xs q a.pair z) : InTri3 (Z.at a.s1) (Z.at a.s2) (Z.at a.s3) z := by
  have he := h.exact hg ha
  have hq : q < up.tree.num + lo.tree.num := by rw [← h.len]; exact (List.getElem?_eq_some_iff.1 ha).1
  have hpos : ∀ p, p < up.tree.num + lo.tree.num → ∀ c, euclid 3 c (seedPos xs p) = euclid 3 c (mergedSeed up lo p) := fun p hp c =>
    euclid_congr3 (fun _ _ => rfl) (hx.first p hp)
  obtain ⟨hv, heq⟩ := hz
  rw [hpos q hq, hpos _ he.lt] at heq
  obtain ⟨α, β, γ, hsum, hzd⟩ := in_plane he.proper he.mirror (lt_of_lt_of_le (by norm_num) he.apart) heq
  have i1 : a.Has a.s1 := .inl rfl
  have i2 : a.Has a.s2 := .inr (.inl rfl)
  have i3 : a.Has a.s3 := .inr (.inr rfl)
  -- a pair that shares two of the spheres
  have key : ∀ s t v, SharedEdge up lo s t v → a.Has s → a.Has t → a.Has v → ∃ k : ℝ, 0 < k ∧ ∃ p : Nat → ℝ, euclid 3 z (mergedSeed up lo q) ^ 2 ≤ euclid 3 z p ^ 2 ∧
      euclid 3 (Z.at s) p ^ 2 - euclid 3 (Z.at s) (mergedSeed up lo q) ^ 2 = 0 ∧ euclid 3 (Z.at t) p ^ 2 - euclid 3 (Z.at t) (mergedSeed up lo q) ^ 2 = 0 ∧
      euclid 3 (Z.at v) p ^ 2 - euclid 3 (Z.at v) (mergedSeed up lo q) ^ 2 = k := by
    rintro s t v ⟨p, b, hb, bs, bt, bv⟩ hs ht hav
    have sb := (h.exact hg hb).seed
    have hp : p < up.tree.num + lo.tree.num := by rw [← h.len]; exact (List.getElem?_eq_some_iff.1 hb).1
    have hoff := sb.off v (he.seed.valid v hav) bv
    have hon := he.seed.on v hav
    have h0 := euclid_nonneg 3 (mergedSeed up lo q) (Z.at v)
    refine ⟨_, ?_, mergedSeed up lo p, ?_, ?_, ?_, rfl⟩
    · rw [euclid_comm 3 (Z.at v), euclid_comm 3 (Z.at v), hon]
      rw [hon] at h0
      norm_num at hoff
      nlinarith
    · have := hv p (lt_of_lt_of_le hp hx.le)
      rw [hpos q hq, hpos p hp] at this
      exact pow_le_pow_left₀ (euclid_nonneg _ _ _) this 2
    · rw [euclid_comm 3 (Z.at s), euclid_comm 3 (Z.at s), sb.on s bs, he.seed.on s hs, sub_self]
    · rw [euclid_comm 3 (Z.at t), euclid_comm 3 (Z.at t), sb.on t bt, he.seed.on t ht, sub_self]
  have pos : ∀ {x k : ℝ}, 0 < k → 0 ≤ x * k → 0 ≤ x := fun hk h => nonneg_of_mul_nonneg_left h hk
  have hs12 : SharedEdge up lo a.s1 a.s2 a.s3 := h.shared hg hw ha i1 i2 i3 he.seed.ne12 he.seed.ne13 he.seed.ne23 he.seed.surf
  have hs13 : SharedEdge up lo a.s1 a.s3 a.s2 := h.shared hg hw ha i1 i3 i2 he.seed.ne13 he.seed.ne12 he.seed.ne23.symm he.seed.surf
  have hs23 : SharedEdge up lo a.s2 a.s3 a.s1 := by
    rcases hedge with h2 | h3 | h4
    · exact h.shared hg hw ha i2 i3 i1 he.seed.ne23 he.seed.ne12.symm he.seed.ne13.symm h2
    · obtain ⟨p, b, x1, x2, x3, x4⟩ := h.shared hg hw ha i3 i2 i1 he.seed.ne23.symm he.seed.ne13.symm he.seed.ne12.symm h3
      exact ⟨p, b, x1, x3, x2, x4⟩
    · exact h4
  refine ⟨α, β, γ, ?_, ?_, ?_, hsum, hzd⟩
  · obtain ⟨k, hk, p, l1, l2, l3, l4⟩ := key _ _ _ hs23 i2 i3 i1
    have := affine_gap hsum hzd (mergedSeed up lo q) p
    rw [l2, l3, l4] at this
    exact pos hk (by linarith)
  · obtain ⟨k, hk, p, l1, l2, l3, l4⟩ := key _ _ _ hs13 i1 i3 i2
    have := affine_gap hsum hzd (mergedSeed up lo q) p
    rw [l2, l3, l4] at this
    exact pos hk (by linarith)
  · obtain ⟨k, hk, p, l1, l2, l3, l4⟩ := key _ _ _ hs12 i1 i2 i3
    have := affine_gap hsum hzd (mergedSeed up lo q) p
    rw [l2, l3, l4] at this
    exact pos hk (by linarith)

/-- **C104.** Conformity: let the stored seeds be pairs as C39 describes them, the triangles watertight (C82), no sphere grazing a common point of three others, and all other seeds outside
the spheres of seed `q`.  Then the triangle of the centres of its three spheres is exactly the common face of the Voronoi cells of `q` and its partner among all seeds.
For a triangle with only one surface sphere, its edge between the two other spheres must belong to another triangle; the validation does not look at such edges. -/
theorem C104_triangle_is_face (h : StoredSeeds Z face up lo) (hg : NoGrazing Z) (hw : Watertight Z.S.num (lo.attr.map fun a => [a.s1, a.s2, a.s3])) {q : Nat} {a : SeedAttr}
    (ha : (mergeSeedAttrs up lo)[q]? = some a) (hedge : a.s2 < Z.S.num ∨ a.s3 < Z.S.num ∨ SharedEdge up lo a.s2 a.s3 a.s1) {xs : List SeedRec} (hx : SeedsAround Z up lo xs 0 a) (z : Nat → ℝ) :
    InTri3 (Z.at a.s1) (Z.at a.s2) (Z.at a.s3) z ↔ CommonFace xs q a.pair z := by
  refine ⟨fun hz => ?_, face_in_triangle h hg hw ha hedge hx⟩
  obtain ⟨e, hall⟩ := triangle_nearest h hg ha le_rfl hx (R := max (Z.at a.s1 3) (max (Z.at a.s2 3) (Z.at a.s3 3)))
    (by rintro s (rfl | rfl | rfl) <;> simp) hz
  refine ⟨fun y hy => ?_, e⟩
  have := hall y hy
  rw [mul_zero, zero_mul, add_zero] at this
  exact (pow_le_pow_iff_left₀ (euclid_nonneg _ _ _) (euclid_nonneg _ _ _) two_ne_zero).1 this

end

/-- No triangle of three centres is so thin that it has no normal. -/
def NotThin (Z : SphereSet) (up lo : SeedTree) : Prop :=
  ∀ a ∈ mergeSeedAttrs up lo, ∀ i j k, [a.s1, a.s2, a.s3].Perm [i, j, k] → (triNormal (centreTri (Z.at i) (Z.at j) (Z.at k))).2 = true

/-- The stored seeds are what the colouring needs (C84). -/
theorem StoredSeeds.paired {Z : SphereSet} {face : Nat → Fin 3 → V3} {up lo : SeedTree} (h : StoredSeeds Z face up lo) (hg : NoGrazing Z) (ht : NotThin Z up lo) : PairedSeeds (fanEnvOf Z up lo) := by
  have hmem : ∀ (b : SeedAttr) (x : Nat), x ∈ [b.s1, b.s2, b.s3] ↔ b.Has x := fun b x => by simp [SeedAttr.Has]
  have hnd : ∀ (q : Nat) (a : SeedAttr), (mergeSeedAttrs up lo)[q]? = some a → [a.s1, a.s2, a.s3].Nodup := fun q a ha => by
    have := (h.exact hg ha).seed
    simp [this.ne12, this.ne13, this.ne23]
  have hperm : ∀ (p q : Nat) (a b : SeedAttr), (mergeSeedAttrs up lo)[p]? = some a → (mergeSeedAttrs up lo)[q]? = some b → (∀ s, a.Has s ↔ b.Has s) → [a.s1, a.s2, a.s3].Perm [b.s1, b.s2, b.s3] :=
    fun p q a b ha hb hs => (List.perm_ext_iff_of_nodup (hnd p a ha) (hnd q b hb)).2 fun x => by rw [hmem, hmem]; exact hs x
  have hhas : ∀ (a b : SeedAttr), [a.s1, a.s2, a.s3].Perm [b.s1, b.s2, b.s3] → ∀ s, a.Has s ↔ b.Has s := fun a b hp s => by rw [← hmem, ← hmem]; exact hp.mem_iff
  refine ⟨fun s a ha => ?_, fun a ha => ?_, fun s t a b ha hb hp => ?_, fun s a ha i j k hp => ⟨ht a (List.mem_of_getElem? ha) i j k hp, ?_⟩⟩
  · have ha : (mergeSeedAttrs up lo)[s]? = some a := ha
    have he := h.exact hg ha
    obtain ⟨b, hb, hab⟩ := he.attr
    have he' := h.exact hg hb
    obtain ⟨c, hc, hbc⟩ := he'.attr
    refine ⟨fun e => ?_, b, hb, ?_, (hperm _ _ a b ha hb hab).symm⟩
    · have := he.side
      rw [e] at this
      omega
    · refine (h.unique ha hc (fun x => (hab x).trans (hbc x)) ?_).symm
      have h1 := he.side
      have h2 := he'.side
      omega
  · obtain ⟨q, hq⟩ := List.mem_iff_getElem?.1 ha
    exact hnd q a hq
  · have ha : (mergeSeedAttrs up lo)[s]? = some a := ha
    have hb : (mergeSeedAttrs up lo)[t]? = some b := hb
    have hab := hhas a b hp
    by_cases hside : s < up.tree.num ↔ t < up.tree.num
    · exact .inl (h.unique ha hb hab hside).symm
    · have he := h.exact hg ha
      obtain ⟨c, hc, hac⟩ := he.attr
      have h1 := he.side
      exact .inr (h.unique hb hc (fun x => (hab x).symm.trans (hac x)) (by omega))
  · have ha' : (mergeSeedAttrs up lo)[s]? = some a := ha
    have he := h.exact hg ha'
    obtain ⟨m, w, -, h1, h2, hul⟩ := he.mirror
    have hw : ∀ x, a.Has x → ip 3 w (Z.at x) = ip 3 w (Z.at a.s1) := by
      have e : ∀ p q : Nat → ℝ, ip 3 w (p - q) = ip 3 w p - ip 3 w q := fun p q => by simp only [ip3, Pi.sub_apply]; ring
      rw [e] at h1 h2
      rintro x (rfl | rfl | rfl)
      · rfl
      · linarith
      · linarith
    have hin : ∀ x, x = i ∨ x = j ∨ x = k → a.Has x := fun x hx => (hmem a x).1 (hp.mem_iff.2 (by simpa using hx))
    have hor : ∀ x y, a.Has x → a.Has y → ip 3 w (Z.at x - Z.at y) = 0 := fun x y hx hy => by
      have e : ip 3 w (Z.at x - Z.at y) = ip 3 w (Z.at x) - ip 3 w (Z.at y) := by simp only [ip3, Pi.sub_apply]; ring
      rw [e, hw x hx, hw y hy, sub_self]
    have hn := ht a (List.mem_of_getElem? ha) i j k hp
    have hB : 0 < dot3 (areaVec (centreTri (Z.at i) (Z.at j) (Z.at k))) (areaVec (centreTri (Z.at i) (Z.at j) (Z.at k))) := by
      rcases triNormal_spec (centreTri (Z.at i) (Z.at j) (Z.at k)) with ⟨-, -, h, -⟩ | ⟨h, -⟩
      · exact h
      · rw [hn] at h; simp at h
    have hB0 : areaVec (centreTri (Z.at i) (Z.at j) (Z.at k)) ≠ 0 := fun h0 => by rw [h0] at hB; simp [dot3] at hB
    obtain ⟨r, w0, w1, w2⟩ := orth_multiple hB0 (hor j i (hin _ (.inr (.inl rfl))) (hin _ (.inl rfl))) (hor k i (hin _ (.inr (.inr rfl))) (hin _ (.inl rfl)))
    have hdot : dot3 (fun d => toV3 (mergedSeed up lo a.pair) d - toV3 (mergedSeed up lo s) d) (areaVec (centreTri (Z.at i) (Z.at j) (Z.at k))) =
        -2 * r * dot3 (areaVec (centreTri (Z.at i) (Z.at j) (Z.at k))) (areaVec (centreTri (Z.at i) (Z.at j) (Z.at k))) := by
      have e0 := hul 0 (by norm_num)
      have e1 := hul 1 (by norm_num)
      have e2 := hul 2 (by norm_num)
      have f0 : toV3 (mergedSeed up lo a.pair) 0 - toV3 (mergedSeed up lo s) 0 = -2 * w 0 := by show mergedSeed up lo a.pair 0 - mergedSeed up lo s 0 = _; rw [e0.1, e0.2]; ring
      have f1 : toV3 (mergedSeed up lo a.pair) 1 - toV3 (mergedSeed up lo s) 1 = -2 * w 1 := by show mergedSeed up lo a.pair 1 - mergedSeed up lo s 1 = _; rw [e1.1, e1.2]; ring
      have f2 : toV3 (mergedSeed up lo a.pair) 2 - toV3 (mergedSeed up lo s) 2 = -2 * w 2 := by show mergedSeed up lo a.pair 2 - mergedSeed up lo s 2 = _; rw [e2.1, e2.2]; ring
      unfold dot3
      beta_reduce
      rw [f0, f1, f2, w0, w1, w2]; ring
    show dot3 (fun d => toV3 (mergedSeed up lo a.pair) d - toV3 (mergedSeed up lo s) d) (areaVec (centreTri (Z.at i) (Z.at j) (Z.at k))) ≠ 0
    rw [hdot]
    refine mul_ne_zero (mul_ne_zero (by norm_num) fun hr => ?_) hB.ne'
    subst hr
    have hul' : ∀ d, d < 3 → mergedSeed up lo s d = mergedSeed up lo a.pair d := fun d hd => by
      have hw : w d = 0 := by interval_cases d <;> simp_all
      rw [(hul d hd).1, (hul d hd).2, hw]; ring
    have := he.apart
    rw [euclid_congr3 hul' (fun _ _ => rfl), euclid_self] at this
    norm_num at this

/-- **C104, regions.** For a watertight surface of surface spheres only, each surrounded by one fan of triangles, the seeds the sampling stored are put into regions without undefined
behaviour, two of them into the same one exactly if a chain of neighbouring triangles leads from one to the other along one side of the surface. -/
theorem C104_regions {Z : SphereSet} {face : Nat → Fin 3 → V3} {up lo : SeedTree} (h : StoredSeeds Z face up lo) (hg : NoGrazing Z) (ht : NotThin Z up lo)
    (hw : Watertight Z.S.num (lo.attr.map fun a => [a.s1, a.s2, a.s3])) (hsurf : Z.total = Z.S.num) (h1 : ∀ i, i < Z.S.num → OneFan (fanEnvOf Z up lo) i) (capS cap k k' : Nat) (hS : Z.S.num ≤ capS)
    (hcap : up.tree.num + lo.tree.num ≤ cap) (e : Nat) (he : e < up.tree.num + lo.tree.num) :
    ∃ G c g reg nr, linkSpheres Z.S.num capS (mergeSeedAttrs up lo) 0 { rows := none, cap := k } = some G ∧
      colourSpheres (fanEnvOf Z up lo) Z.S.num cap G Z.S.num (fun _ => 0) { rows := none, cap := k' } = some (c, g) ∧
      colourSeeds g (mergeSeedAttrs up lo).length e = some (reg, nr) ∧ reg e = 0 ∧
      ∀ s t, s < up.tree.num + lo.tree.num → t < up.tree.num + lo.tree.num → (reg s = reg t ↔ AlongSurface (fanEnvOf Z up lo) Z.S.num s t) := by
  have hP := h.paired hg ht
  have hlen : (fanEnvOf Z up lo).attr.length = up.tree.num + lo.tree.num := h.len
  obtain ⟨G, c, g, reg, nr, e1, e2, -, e3, e4, e5⟩ := C84_regions (fanEnvOf Z up lo) Z.S.num capS cap k k' hP (fun h0 => by rw [h0, List.length_nil] at hlen; omega) hS (hlen ▸ hcap) (fun a ha => by
      obtain ⟨q, hq⟩ := List.mem_iff_getElem?.1 ha
      have hv := (h.exact hg hq).seed.valid
      rw [hsurf] at hv
      exact ⟨hv _ (.inl rfl), hv _ (.inr (.inl rfl)), hv _ (.inr (.inr rfl))⟩)
    (C84_watertight_fans _ up lo Z.S.num hP rfl (fun s a ha => by
      have := (h.exact hg (q := s) ha).side
      rw [h.upLen]; exact this) hw) h1 e (hlen ▸ he)
  exact ⟨G, c, g, reg, nr, e1, e2, e3, e4, fun s t hs ht => e5 s t (hlen ▸ hs) (hlen ▸ ht)⟩

/-- The mesher's copy of the spheres: surface, edge and corner spheres of `Z` are in the lists of `F`. -/
structure SameSpheres (Z : SphereSet) (F : Features) : Prop where
  surface : ∀ s, s < Z.S.num → ∃ p ∈ F.surface, p.x = Z.at s ∧ p.size = Z.at s 3
  other : ∀ s, Z.S.num ≤ s → s < Z.total → ∃ p ∈ F.edges ++ F.corners, p.x = Z.at s ∧ p.size = Z.at s 3

/-- The seeds of a run of the interior: the seeds of the surface first, the others outside the spheres up to `1e-10`. -/
theorem run_seeds_around {Z : SphereSet} {face : Nat → Fin 3 → V3} {up lo : SeedTree} {ρ : ℝ → ℝ} (hmono : Monotone ρ) (hρ : ∀ n : Nat, ρ (n : ℝ) = n) (hst : StoredSeeds Z face up lo) (hg : NoGrazing Z)
    {F : Features} {L rmax : ℝ} (hF : F.OK L) (hsz : SizingOK F) (hmax : 0 ≤ rmax)
    (hc : F.corners.length ≤ F.surface.length) (hz : F.sizing.length ≤ F.surface.length) (hEd : EdgesOK F) (hZF : SameSpheres Z F) (threads : Nat) (imposed : Option (List (Nat → ℝ))) (generate : Bool)
    (D : RunDraws) (hd : AllDrawsOK F D.vs D.ys) (hi : ∀ inp ∈ D.inputs, inp.OK) (hu : ∀ i, 0 ≤ D.us i ∧ D.us i ≤ 1) (seeds : List SeedRec) (h0 : ∀ a ∈ seeds, 0 ≤ a.size)
    (hin : ∃ a ∈ seeds, a.region ≠ 0) (hD : ImposeOK F L seeds imposed D) (hlen : seeds.length = up.tree.num + lo.tree.num)
    (hpos : ∀ (q : Nat) (s : SeedRec), seeds[q]? = some s → ∀ d, d < 3 → s.x d = mergedSeed up lo q d) :
    ∃ N, ∀ lf, N ≤ lf → ∀ out, interiorRun ρ F L rmax lf threads imposed generate D seeds = some (some out) →
      ∀ (q : Nat) (a : SeedAttr), (mergeSeedAttrs up lo)[q]? = some a → (∀ s, a.Has s → s < Z.S.num) ∨ F.edges = [] → SeedsAround Z up lo out.seeds 1e-10 a := by
  obtain ⟨N, hN⟩ := C98_interior_run_partial hmono hρ (rmax := rmax) hF hsz hmax hc hz hEd threads imposed generate D hd hi hu seeds h0 hin hD
  refine ⟨N, fun lf hf out ho q a ha hcase => ?_⟩
  obtain ⟨g1, -, ⟨k, m, hk, g2, -⟩, -⟩ := (hN lf hf).2 out ho
  have hb := (hst.exact hg ha).seed
  have hlt : ∀ q, q < up.tree.num + lo.tree.num → ∃ s b : SeedRec, seeds[q]? = some s ∧ out.seeds[q]? = some b ∧ b.x = s.x := fun q hq => by
    have e : seeds[q]? = some (seeds[q]'(by omega)) := List.getElem?_eq_getElem _
    obtain ⟨b, x1, x2, -⟩ := g1 q _ e
    exact ⟨_, b, e, x1, x2⟩
  refine ⟨?_, fun q hq d hd' => ?_, fun q hq hql s hs => ?_⟩
  · by_contra hcon
    obtain ⟨s, b, -, e, -⟩ := hlt out.seeds.length (by omega)
    simp at e
  · obtain ⟨s, b, e1, e2, e3⟩ := hlt q hq
    unfold seedPos
    rw [e2]
    simp only
    rw [e3, hpos q s e1 d hd']
  · have e : out.seeds[q]? = some out.seeds[q] := List.getElem?_eq_getElem hql
    obtain ⟨-, o1, -, o2⟩ := g2 q _ (by omega) e
    have hp : ∃ p : SeedRec, p.x = Z.at s ∧ p.size = Z.at s 3 ∧ p.size - 1e-10 ≤ euclid 3 (out.seeds[q]).x p.x := by
      by_cases hsn : s < Z.S.num
      · obtain ⟨p, hp, e1, e2⟩ := hZF.surface s hsn
        exact ⟨p, e1, e2, o1 p hp⟩
      · rcases hcase with hc' | hc'
        · exact absurd (hc' s hs) hsn
        · obtain ⟨p, hp, e1, e2⟩ := hZF.other s (not_lt.1 hsn) (hb.valid s hs)
          rw [hc', List.length_nil] at hk
          obtain ⟨o3, o4⟩ := o2 (by omega)
          rcases List.mem_append.1 hp with hp | hp
          · exact ⟨p, e1, e2, o3 p hp⟩
          · exact ⟨p, e1, e2, o4 p hp⟩
    obtain ⟨p, e1, e2, e3⟩ := hp
    unfold seedPos
    rw [e]
    simp only
    rw [← e2, ← e1]; exact e3

/-- **C104, the whole run.** From `generate_surface_spheres` to the seeds the mesh is made of: let the sampling return, C39 apply to the final spheres, no sphere graze a common point of three
others, and the interior seeds be generated from the surface seeds.  Take a triangle of three surface spheres, or any triangle if there are no edge spheres.  Then the common face of the cells of its two seeds
among all final seeds lies in the triangle; all points of the triangle are as far from both seeds, and no other seed is nearer than by the square root of `2e-10` times the largest radius
(the mesher lets a seed be `1e-10` inside a sphere). -/
theorem C104_run {ρ : ℝ → ℝ} (hmono : Monotone ρ) (hρ : ∀ n : Nat, ρ (n : ℝ) = n) (E : SurfSetup) (hE : E.Ok) (mps fuel : Nat) (r : SurfRun) (up lo : SeedTree)
    (hrun : surfaceSpheres E mps fuel = some (some (r, up, lo))) {Z : SphereSet} (eZ : Z = E.spheres r.tree.spheres r.tree.links) (hZ : Z.OK E.L)
    (hW : ∀ k, (E.env Z { r with seedings := k }).Works Z) (hg : NoGrazing Z)
    {F : Features} {L rmax : ℝ} (hF : F.OK L) (hsz : SizingOK F) (hmax : 0 ≤ rmax)
    (hc : F.corners.length ≤ F.surface.length) (hz : F.sizing.length ≤ F.surface.length) (hEd : EdgesOK F) (hZF : SameSpheres Z F) (threads : Nat) (imposed : Option (List (Nat → ℝ))) (generate : Bool)
    (D : RunDraws) (hd : AllDrawsOK F D.vs D.ys) (hi : ∀ inp ∈ D.inputs, inp.OK) (hu : ∀ i, 0 ≤ D.us i ∧ D.us i ≤ 1) (seeds : List SeedRec) (h0 : ∀ a ∈ seeds, 0 ≤ a.size)
    (hin : ∃ a ∈ seeds, a.region ≠ 0) (hD : ImposeOK F L seeds imposed D) (hlen : seeds.length = up.tree.num + lo.tree.num)
    (hpos : ∀ (q : Nat) (s : SeedRec), seeds[q]? = some s → ∀ d, d < 3 → s.x d = mergedSeed up lo q d) :
    ∃ N, ∀ lf, N ≤ lf → ∀ out, interiorRun ρ F L rmax lf threads imposed generate D seeds = some (some out) →
      ∀ (q : Nat) (a : SeedAttr), (mergeSeedAttrs up lo)[q]? = some a → (∀ s, a.Has s → s < Z.S.num) ∨ F.edges = [] →
        (a.s2 < Z.S.num ∨ a.s3 < Z.S.num ∨ SharedEdge up lo a.s2 a.s3 a.s1) → ∀ R, (∀ s, a.Has s → Z.at s 3 ≤ R) → ∀ z,
          (CommonFace out.seeds q a.pair z → InTri3 (Z.at a.s1) (Z.at a.s2) (Z.at a.s3) z) ∧
          (InTri3 (Z.at a.s1) (Z.at a.s2) (Z.at a.s3) z → euclid 3 z (seedPos out.seeds q) = euclid 3 z (seedPos out.seeds a.pair) ∧
            ∀ y, y < out.seeds.length → euclid 3 z (seedPos out.seeds q) ^ 2 ≤ euclid 3 z (seedPos out.seeds y) ^ 2 + 2 * 1e-10 * R) := by
  have hS := C82_surface_spheres E hE mps fuel r up lo hrun
  obtain ⟨⟨m0, m0'⟩, m1, m2, -⟩ := hS.seeds Z eZ hZ hW
  have hst : StoredSeeds Z (recordedFace E r) up lo := ⟨m0, m0', m1, m2⟩
  have hwt : Watertight Z.S.num (lo.attr.map fun a => [a.s1, a.s2, a.s3]) := by rw [eZ]; exact hS.watertight
  obtain ⟨N, hN⟩ := run_seeds_around hmono hρ hst hg (rmax := rmax) hF hsz hmax hc hz hEd hZF threads imposed generate D hd hi hu seeds h0 hin hD hlen hpos
  refine ⟨N, fun lf hf out ho q a ha hcase hedge R hR z => ?_⟩
  have hx := hN lf hf out ho q a ha hcase
  exact ⟨face_in_triangle hst hg hwt ha hedge hx, triangle_nearest hst hg ha (by norm_num) hx hR⟩

end VoroCrust
