import Verif.Model.Seeds
import Verif.Props.PowerVertex
import Verif.Props.Cover
import Verif.Props.Lipschitz
import Verif.Props.Weld

/-! # Surface seeds (C39) -/

namespace VoroCrust

/-! ## One pair -/

/-- A direction as a vector with `Nat` indices. -/
def ofV3 (n : V3) : Nat → ℝ := fun d => if h : d < 3 then n ⟨d, h⟩ else 0

theorem ip3 (u v : Nat → ℝ) : ip 3 u v = u 0 * v 0 + u 1 * v 1 + u 2 * v 2 := by
  unfold ip; rw [Finset.sum_range_succ, Finset.sum_range_succ, Finset.sum_range_one]

theorem ofV3_at (n : V3) : ofV3 n 0 = n 0 ∧ ofV3 n 1 = n 1 ∧ ofV3 n 2 = n 2 := ⟨rfl, rfl, rfl⟩

/-- The centres of a triple. -/
def tripleC (a b c : Nat → ℝ) : Nat → Nat → ℝ := fun i => if i = 0 then a else if i = 1 then b else c

/-- The radii of a triple. -/
def tripleR (a b c : Nat → ℝ) : Nat → ℝ := fun i => if i = 0 then a 3 else if i = 1 then b 3 else c 3

/-- Three centres in general position: `1e-5` away from coinciding or lying on a line, and an angle of at least `1e-10`. -/
structure WideTriple (a b c : Nat → ℝ) : Prop where
  spread : Spread 3 3 (tripleC a b c)
  angle : 1e-10 * (len3 (toV3 (b - a)) * len3 (toV3 (c - a))) ≤ len3 (areaVec (centreTri a b c))

/-- `x` is in the plane through the three centres. -/
def InPlane (a b c x : Nat → ℝ) : Prop := ∃ s t : ℝ, ∀ d, d < 3 → x d = a d + s * (b d - a d) + t * (c d - a d)

/-- `u` and `l` are mirror images in the plane of the three centres. -/
def MirrorPair (a b c u l : Nat → ℝ) : Prop :=
  ∃ m w : Nat → ℝ, InPlane a b c m ∧ ip 3 w (b - a) = 0 ∧ ip 3 w (c - a) = 0 ∧ ∀ d, d < 3 → u d = m d + w d ∧ l d = m d - w d

theorem len3_sq (v : V3) : len3 v ^ 2 = dot3 v v := Real.sq_sqrt (dot3_self_nonneg v)

theorem areaVec_orth (a b c : Nat → ℝ) :
    ip 3 (ofV3 (areaVec (centreTri a b c))) (b - a) = 0 ∧ ip 3 (ofV3 (areaVec (centreTri a b c))) (c - a) = 0 := by
  rw [ip3, ip3]
  constructor <;>
  · simp only [(ofV3_at _).1, (ofV3_at _).2.1, (ofV3_at _).2.2, areaVec, cross3, centreTri, toV3, Pi.sub_apply, Matrix.cons_val_zero, Matrix.cons_val_one, Matrix.cons_val_two,
      Matrix.head_cons, Matrix.tail_cons]
    norm_num
    ring

theorem spread_edges {a b c : Nat → ℝ} (h : Spread 3 3 (tripleC a b c)) : 1e-10 ≤ dot3 (toV3 (b - a)) (toV3 (b - a)) ∧ 1e-10 ≤ dot3 (toV3 (c - a)) (toV3 (c - a)) := by
  have h1 := h 1 (by norm_num) (by norm_num) 0 (Submodule.zero_mem _)
  have h2 := h 2 (by norm_num) (by norm_num) 0 (Submodule.zero_mem _)
  rw [sub_zero, ip3] at h1 h2
  exact ⟨h1, h2⟩

theorem wide_normal {a b c : Nat → ℝ} (h : WideTriple a b c) :
    (triNormal (centreTri a b c)).2 = true ∧ dot3 (triNormal (centreTri a b c)).1 (triNormal (centreTri a b c)).1 = 1 ∧
      ∃ k, 0 < k ∧ ∀ d, (triNormal (centreTri a b c)).1 d = k * areaVec (centreTri a b c) d := by
  rcases triNormal_spec (centreTri a b c) with ⟨h1, h2, -, h4⟩ | ⟨-, h2⟩
  · exact ⟨h1, h2, h4⟩
  · exfalso
    obtain ⟨e1, e2⟩ := spread_edges h.spread
    have hb : (fun d => centreTri a b c 1 d - centreTri a b c 0 d) = toV3 (b - a) := by funext d; rfl
    have hc : (fun d => centreTri a b c 2 d - centreTri a b c 0 d) = toV3 (c - a) := by funext d; rfl
    rw [hb, hc] at h2
    have l1 : 1e-10 ≤ len3 (toV3 (b - a)) := Real.le_sqrt_of_sq_le (le_trans (by norm_num) e1)
    have l2 : 1e-10 ≤ len3 (toV3 (c - a)) := Real.le_sqrt_of_sq_le (le_trans (by norm_num) e2)
    rcases h2 with h2 | h2 | h2
    · linarith
    · linarith
    · linarith [h.angle]

/-- The adjusted normal. -/
theorem seedNormal_spec {a b c : Nat → ℝ} (h : WideTriple a b c) (f : Fin 3 → V3) :
    ip 3 (ofV3 (seedNormal a b c f).1) (ofV3 (seedNormal a b c f).1) = 1 ∧ ip 3 (ofV3 (seedNormal a b c f).1) (b - a) = 0 ∧
      ip 3 (ofV3 (seedNormal a b c f).1) (c - a) = 0 ∧ 0 ≤ dot3 (triNormal f).1 (seedNormal a b c f).1 := by
  obtain ⟨-, h2, k, -, h4⟩ := wide_normal h
  obtain ⟨o1, o2⟩ := areaVec_orth a b c
  set n := (triNormal (centreTri a b c)).1 with hn
  have hN : ofV3 n = k • ofV3 (areaVec (centreTri a b c)) := by
    funext d
    unfold ofV3
    simp only [Pi.smul_apply, smul_eq_mul]
    split
    · exact h4 _
    · simp
  have q1 : ip 3 (ofV3 n) (ofV3 n) = 1 := by rw [ip3, ← h2]; rfl
  have q2 : ip 3 (ofV3 n) (b - a) = 0 := by rw [hN, ip_smul_left, o1, mul_zero]
  have q3 : ip 3 (ofV3 n) (c - a) = 0 := by rw [hN, ip_smul_left, o2, mul_zero]
  unfold seedNormal
  simp only [← hn]
  split
  · next hlt =>
    have hneg : ofV3 (fun d => -n d) = (-1 : ℝ) • ofV3 n := by
      funext d; unfold ofV3; simp only [Pi.smul_apply, smul_eq_mul]; split <;> ring
    simp only [hneg]
    refine ⟨?_, by rw [ip_smul_left, q2, mul_zero], by rw [ip_smul_left, q3, mul_zero], ?_⟩
    · rw [ip_smul_left, ip_comm, ip_smul_left, q1]; norm_num
    · have : dot3 (triNormal f).1 (fun d => -n d) = -dot3 (triNormal f).1 n := by unfold dot3; ring
      rw [this]; linarith
  · next hlt => exact ⟨q1, q2, q3, not_lt.1 hlt⟩

theorem arms_triple (a b c : Nat → ℝ) : arms (tripleC a b c) 2 = {b - a, c - a} := by
  ext u
  simp only [arms, Set.mem_setOf_eq, Set.mem_insert_iff, Set.mem_singleton_iff]
  constructor
  · rintro ⟨i, h1, h2, rfl⟩
    have : i = 1 ∨ i = 2 := by omega
    rcases this with rfl | rfl
    · left; rfl
    · right; rfl
  · rintro (rfl | rfl)
    · exact ⟨1, by norm_num, by norm_num, rfl⟩
    · exact ⟨2, by norm_num, by norm_num, rfl⟩

/-- The point is a power vertex of the three spheres. -/
structure IsPowerVertex (a b c pv : Nat → ℝ) : Prop where
  eqb : power 3 pv b (b 3) = power 3 pv a (a 3)
  eqc : power 3 pv c (c 3) = power 3 pv a (a 3)
  plane : InPlane a b c pv

theorem powerVertex_triple {a b c : Nat → ℝ} (h : Spread 3 3 (tripleC a b c)) (dart : Nat → Nat → ℝ) :
    ∃ o, powerVertexN 3 3 (tripleC a b c) (tripleR a b c) dart = some o ∧ ∀ pv, o = some pv → IsPowerVertex a b c pv ∧
      ∀ y, IsPowerVertex a b c y → ∀ d, d < 3 → y d = pv d := by
  obtain ⟨o, e, ho⟩ := C71_power_vertex 3 3 (by norm_num) (by norm_num) (by norm_num) (tripleC a b c) (tripleR a b c) h dart
  refine ⟨o, e, fun pv hpv => ?_⟩
  obtain ⟨h1, h2, h3⟩ := ho pv hpv
  have hspan : ∀ x : Nat → ℝ, (∃ v ∈ Submodule.span ℝ (arms (tripleC a b c) (3 - 1)), ∀ d, d < 3 → x d = tripleC a b c 0 d + v d) ↔ InPlane a b c x := by
    intro x
    rw [show (3 - 1 : Nat) = 2 from rfl, arms_triple]
    constructor
    · rintro ⟨v, hv, hx⟩
      obtain ⟨s, t, rfl⟩ := Submodule.mem_span_pair.1 hv
      exact ⟨s, t, fun d hd => by rw [hx d hd]; simp [tripleC]; ring⟩
    · rintro ⟨s, t, hx⟩
      refine ⟨s • (b - a) + t • (c - a), Submodule.mem_span_pair.2 ⟨s, t, rfl⟩, fun d hd => ?_⟩
      rw [hx d hd]; simp [tripleC]; ring
  refine ⟨⟨h1 1 (by norm_num), h1 2 (by norm_num), (hspan pv).1 h2⟩, fun y hy d hd => h3 y (fun i hi => ?_) ((hspan y).2 hy.plane) d hd⟩
  interval_cases i
  · rfl
  · exact hy.eqb
  · exact hy.eqc

theorem ip_plane {a b c x N : Nat → ℝ} (hx : InPlane a b c x) (h1 : ip 3 N (b - a) = 0) (h2 : ip 3 N (c - a) = 0) : ip 3 (x - a) N = 0 := by
  obtain ⟨s, t, hx⟩ := hx
  rw [ip3] at h1 h2 ⊢
  simp only [Pi.sub_apply] at h1 h2 ⊢
  rw [hx 0 (by norm_num), hx 1 (by norm_num), hx 2 (by norm_num)]
  linear_combination s * h1 + t * h2

/-- Distance of a point beside the plane to a centre in the plane. -/
theorem euclid_beside {a b c m N x q : Nat → ℝ} (s : ℝ) (hm : InPlane a b c m) (hq : InPlane a b c q) (h0 : ip 3 N N = 1) (h1 : ip 3 N (b - a) = 0) (h2 : ip 3 N (c - a) = 0)
    (hx : ∀ d, d < 3 → x d = m d + s * N d) : euclid 3 x q ^ 2 = euclid 3 m q ^ 2 + s ^ 2 := by
  have e1 := ip_plane hm h1 h2
  have e2 := ip_plane hq h1 h2
  rw [euclid_ip, euclid_ip]
  rw [ip3] at *
  simp only [Pi.sub_apply] at *
  rw [ip3]
  simp only [Pi.sub_apply]
  rw [hx 0 (by norm_num), hx 1 (by norm_num), hx 2 (by norm_num)]
  linear_combination 2 * s * e1 - 2 * s * e2 + s ^ 2 * h0

/-- The two points common to three spheres. -/
theorem pair_on_spheres {a b c pv N : Nat → ℝ} (ha : 0 ≤ a 3) (hb : 0 ≤ b 3) (hc : 0 ≤ c 3) (hp : IsPowerVertex a b c pv) (h0 : ip 3 N N = 1) (h1 : ip 3 N (b - a) = 0)
    (h2 : ip 3 N (c - a) = 0) (hle : euclid 3 pv a ≤ a 3) {x : Nat → ℝ} {s : ℝ} (hs : s ^ 2 = a 3 ^ 2 - euclid 3 pv a ^ 2) (hx : ∀ d, d < 3 → x d = pv d + s * N d) :
    euclid 3 x a = a 3 ∧ euclid 3 x b = b 3 ∧ euclid 3 x c = c 3 := by
  have pa : InPlane a b c a := ⟨0, 0, fun d _ => by ring⟩
  have pb : InPlane a b c b := ⟨1, 0, fun d _ => by ring⟩
  have pc : InPlane a b c c := ⟨0, 1, fun d _ => by ring⟩
  have e1 := euclid_beside s hp.plane pa h0 h1 h2 hx
  have e2 := euclid_beside s hp.plane pb h0 h1 h2 hx
  have e3 := euclid_beside s hp.plane pc h0 h1 h2 hx
  have q1 := hp.eqb
  have q2 := hp.eqc
  unfold power at q1 q2
  have key : ∀ {q : Nat → ℝ} {r : ℝ}, 0 ≤ r → euclid 3 x q ^ 2 = r ^ 2 → euclid 3 x q = r := fun hr h => by
    have := (sq_eq_sq₀ (euclid_nonneg 3 x _) hr).1 h
    exact this
  exact ⟨key ha (by linarith), key hb (by linarith), key hc (by linarith)⟩

/-- A unit vector orthogonal to the plane of the centres is determined by its sign. -/
theorem unit_orth_unique {a b c : Nat → ℝ} (h : WideTriple a b c) {N M : Nat → ℝ} (hN : ip 3 N N = 1) (hN1 : ip 3 N (b - a) = 0) (hN2 : ip 3 N (c - a) = 0)
    (hM : ip 3 M M = 1) (hM1 : ip 3 M (b - a) = 0) (hM2 : ip 3 M (c - a) = 0) : (∀ d, d < 3 → M d = N d) ∨ ∀ d, d < 3 → M d = -N d := by
  obtain ⟨-, -, k, hk, hk'⟩ := wide_normal h
  obtain ⟨-, hu, -⟩ := wide_normal h
  set A := areaVec (centreTri a b c) with hA
  have hAA : 0 < dot3 A A := by
    rcases (dot3_self_nonneg A).lt_or_eq with h' | h'
    · exact h'
    · exfalso
      have : dot3 (triNormal (centreTri a b c)).1 (triNormal (centreTri a b c)).1 = k ^ 2 * dot3 A A := by
        unfold dot3; rw [hk' 0, hk' 1, hk' 2]; ring
      rw [hu, ← h'] at this; norm_num at this
  -- every vector orthogonal to both edges is a multiple of the area vector
  have hpar : ∀ {V : Nat → ℝ}, ip 3 V (b - a) = 0 → ip 3 V (c - a) = 0 → ∀ d, d < 3 → dot3 A A * V d = (V 0 * A 0 + V 1 * A 1 + V 2 * A 2) * ofV3 A d := by
    intro V v1 v2 d hd
    rw [ip3] at v1 v2
    simp only [Pi.sub_apply] at v1 v2
    have a0 : A 0 = (b 1 - a 1) * (c 2 - a 2) - (b 2 - a 2) * (c 1 - a 1) := by rw [hA]; rfl
    have a1 : A 1 = (b 2 - a 2) * (c 0 - a 0) - (b 0 - a 0) * (c 2 - a 2) := by rw [hA]; rfl
    have a2 : A 2 = (b 0 - a 0) * (c 1 - a 1) - (b 1 - a 1) * (c 0 - a 0) := by rw [hA]; rfl
    interval_cases d
    · rw [(ofV3_at A).1]; unfold dot3; rw [a0, a1, a2]
      linear_combination ((b 0 - a 0) * ((c 0 - a 0) ^ 2 + (c 1 - a 1) ^ 2 + (c 2 - a 2) ^ 2) - (c 0 - a 0) * ((b 0 - a 0) * (c 0 - a 0) + (b 1 - a 1) * (c 1 - a 1) + (b 2 - a 2) * (c 2 - a 2))) * v1 + ((c 0 - a 0) * ((b 0 - a 0) ^ 2 + (b 1 - a 1) ^ 2 + (b 2 - a 2) ^ 2) - (b 0 - a 0) * ((b 0 - a 0) * (c 0 - a 0) + (b 1 - a 1) * (c 1 - a 1) + (b 2 - a 2) * (c 2 - a 2))) * v2
    · rw [(ofV3_at A).2.1]; unfold dot3; rw [a0, a1, a2]
      linear_combination ((b 1 - a 1) * ((c 0 - a 0) ^ 2 + (c 1 - a 1) ^ 2 + (c 2 - a 2) ^ 2) - (c 1 - a 1) * ((b 0 - a 0) * (c 0 - a 0) + (b 1 - a 1) * (c 1 - a 1) + (b 2 - a 2) * (c 2 - a 2))) * v1 + ((c 1 - a 1) * ((b 0 - a 0) ^ 2 + (b 1 - a 1) ^ 2 + (b 2 - a 2) ^ 2) - (b 1 - a 1) * ((b 0 - a 0) * (c 0 - a 0) + (b 1 - a 1) * (c 1 - a 1) + (b 2 - a 2) * (c 2 - a 2))) * v2
    · rw [(ofV3_at A).2.2]; unfold dot3; rw [a0, a1, a2]
      linear_combination ((b 2 - a 2) * ((c 0 - a 0) ^ 2 + (c 1 - a 1) ^ 2 + (c 2 - a 2) ^ 2) - (c 2 - a 2) * ((b 0 - a 0) * (c 0 - a 0) + (b 1 - a 1) * (c 1 - a 1) + (b 2 - a 2) * (c 2 - a 2))) * v1 + ((c 2 - a 2) * ((b 0 - a 0) ^ 2 + (b 1 - a 1) ^ 2 + (b 2 - a 2) ^ 2) - (b 2 - a 2) * ((b 0 - a 0) * (c 0 - a 0) + (b 1 - a 1) * (c 1 - a 1) + (b 2 - a 2) * (c 2 - a 2))) * v2
  have pN := @hpar N hN1 hN2
  have pM := @hpar M hM1 hM2
  set x := N 0 * A 0 + N 1 * A 1 + N 2 * A 2 with hx
  set y := M 0 * A 0 + M 1 * A 1 + M 2 * A 2 with hy
  have sq : ∀ {V : Nat → ℝ} {z : ℝ}, (∀ d, d < 3 → dot3 A A * V d = z * ofV3 A d) → ip 3 V V = 1 → z ^ 2 = dot3 A A := by
    intro V z hz hV
    rw [ip3] at hV
    have z0 := hz 0 (by norm_num); have z1 := hz 1 (by norm_num); have z2 := hz 2 (by norm_num)
    rw [(ofV3_at A).1] at z0; rw [(ofV3_at A).2.1] at z1; rw [(ofV3_at A).2.2] at z2
    have h1 : dot3 A A * dot3 A A = z ^ 2 * dot3 A A := by
      have e : dot3 A A * dot3 A A = dot3 A A * dot3 A A * (V 0 * V 0 + V 1 * V 1 + V 2 * V 2) := by rw [hV, mul_one]
      rw [e]
      have : z ^ 2 * dot3 A A = (z * A 0) ^ 2 + (z * A 1) ^ 2 + (z * A 2) ^ 2 := by unfold dot3; ring
      rw [this, ← z0, ← z1, ← z2]; ring
    exact (mul_right_cancel₀ hAA.ne' h1).symm
  have sx := sq pN hN
  have sy := sq pM hM
  have hxy : y = x ∨ y = -x := sq_eq_sq_iff_eq_or_eq_neg.1 (sy.trans sx.symm)
  rcases hxy with h' | h'
  · left
    intro d hd
    have := (pM d hd).trans ((congrArg (· * ofV3 A d) h').trans (pN d hd).symm)
    exact mul_left_cancel₀ hAA.ne' this
  · right
    intro d hd
    have h1 := pM d hd
    rw [h'] at h1
    have h2 := pN d hd
    have : dot3 A A * M d = dot3 A A * -N d := by linarith
    exact mul_left_cancel₀ hAA.ne' this

/-! ## Storing pairs -/

/-- The list `us` is what the tree holds. -/
structure SeedTree.Holds (rb : Nat → Nat → Bool) (t : SeedTree) (us : List (Nat → ℝ)) : Prop where
  built : addTreePoints realLt 3 rb us (SmartTree.empty (fun _ _ => 0) id id) = some t.tree
  attr : t.attr.length = us.length
  apart : PairwiseApart 1e-10 us

theorem SeedTree.empty_holds (rb : Nat → Nat → Bool) : SeedTree.empty.Holds rb [] := ⟨rfl, rfl, List.Pairwise.nil⟩

theorem SeedTree.Holds.num {rb : Nat → Nat → Bool} {t : SeedTree} {us : List (Nat → ℝ)} (h : t.Holds rb us) : t.tree.num = us.length := (addTreePoints_num h.built).num

theorem SeedTree.Holds.pts {rb : Nat → Nat → Bool} {t : SeedTree} {us : List (Nat → ℝ)} (h : t.Holds rb us) {i : Nat} (hi : i < us.length) : t.tree.pts i = us[i] :=
  (addTreePoints_num h.built).pts i hi

theorem SeedTree.Holds.real {rb : Nat → Nat → Bool} {t : SeedTree} {us : List (Nat → ℝ)} (h : t.Holds rb us) (hne : us ≠ []) :
    RealTree { pts := t.tree.pts, num := t.tree.num, dim := 3, lt := realLt } t.tree.links :=
  ⟨rfl, by norm_num, BuiltTree.inserted (dim := 3) realLt rb us _ _ _ t.tree h.built hne⟩

theorem seedIndex_spec {rb : Nat → Nat → Bool} {t : SeedTree} {us : List (Nat → ℝ)} (h : t.Holds rb us) (x : Nat → ℝ) :
    ∃ i, seedIndex t x = some i ∧ ((∃ hi : i < us.length, euclid 3 x us[i] < 1e-10) ∨ (i = us.length ∧ ∀ y ∈ us, 1e-10 ≤ euclid 3 x y)) := by
  unfold seedIndex
  by_cases h0 : us = []
  · subst h0
    rw [if_pos (by rw [h.num]; rfl)]
    exact ⟨0, rfl, Or.inr ⟨rfl, by simp⟩⟩
  · have hn : 0 < t.tree.num := by rw [h.num]; exact List.length_pos_of_ne_nil h0
    rw [if_neg hn.ne']
    obtain ⟨c, b, eq, hres⟩ := C06_closest_is_exhaustive _ _ (h.real h0) (fun _ => true) x false ⊤ le_top
    rw [eq]
    have hres' : c < t.tree.num ∧ b = (euclid 3 x (t.tree.pts c) : WithTop ℝ) ∧ ∀ q, q < t.tree.num → euclid 3 x (t.tree.pts c) ≤ euclid 3 x (t.tree.pts q) := by
      rcases hres with ⟨a1, _, a3, _, a5⟩ | ⟨_, _, a3⟩
      · exact ⟨a1, a3, fun q hq => a5 q hq rfl⟩
      · exact absurd (a3 0 hn rfl) (by simp)
    obtain ⟨c1, c2, c3⟩ := hres'
    subst c2
    have hc : c < us.length := by rw [← h.num]; exact c1
    simp only [WithTop.coe_lt_coe]
    by_cases hlt : euclid 3 x (t.tree.pts c) < 1e-10
    · rw [if_pos hlt]
      exact ⟨c, rfl, Or.inl ⟨hc, by rw [← h.pts hc]; exact hlt⟩⟩
    · rw [if_neg hlt]
      refine ⟨_, rfl, Or.inr ⟨h.num, fun y hy => ?_⟩⟩
      obtain ⟨k, hk, rfl⟩ := List.getElem_of_mem hy
      rw [← h.pts hk]
      exact le_trans (not_lt.1 hlt) (c3 k (by rw [h.num]; exact hk))

theorem addSeed_spec {rb : Nat → Nat → Bool} {t : SeedTree} {us : List (Nat → ℝ)} (h : t.Holds rb us) (x : Nat → ℝ) (hx : ∀ y ∈ us, 1e-10 ≤ euclid 3 x y) (a : SeedAttr) :
    ∃ t', addSeed rb t x a = some t' ∧ t'.Holds rb (us ++ [x]) ∧ t'.attr = t.attr ++ [a] := by
  obtain ⟨st, e, -⟩ := addTreePoint_inv (rb := rb) (by norm_num) realLt_asymm (addTreePoints_num h.built) x
  refine ⟨⟨st, t.attr ++ [a]⟩, by unfold addSeed; rw [e]; rfl, ⟨by rw [addTreePoints_snoc us x _ _ h.built, e], by simp [h.attr], ?_⟩, rfl⟩
  unfold PairwiseApart
  rw [List.pairwise_append]
  exact ⟨h.apart, by simp, fun p hp q hq => by rw [List.mem_singleton.1 hq]; exact hx p hp⟩

/-- `y` stands for `x`: the same point or one within `1e-10`. -/
def StandsFor (y x : Nat → ℝ) : Prop := y = x ∨ euclid 3 x y < 1e-10

/-- What is stored after some pairs: `Good u l s1 s2 s3` says that `u` and `l` were made from spheres `s1`, `s2`, `s3`. -/
structure SeedsStored (rb : Nat → Nat → Bool) (Good : (Nat → ℝ) → (Nat → ℝ) → Nat → Nat → Nat → Prop) (us ls : List (Nat → ℝ)) (up lo : SeedTree) : Prop where
  upper : up.Holds rb us
  lower : lo.Holds rb ls
  pairU : ∀ (i : Nat) (a : SeedAttr), up.attr[i]? = some a → ∃ u l y, us[i]? = some u ∧ Good u l a.s1 a.s2 a.s3 ∧ ls[a.pair]? = some y ∧ StandsFor y l
  pairL : ∀ (i : Nat) (a : SeedAttr), lo.attr[i]? = some a → ∃ u l y, ls[i]? = some l ∧ Good u l a.s1 a.s2 a.s3 ∧ us[a.pair]? = some y ∧ StandsFor y u

theorem SeedsStored.start (rb : Nat → Nat → Bool) (Good : (Nat → ℝ) → (Nat → ℝ) → Nat → Nat → Nat → Prop) : SeedsStored rb Good [] [] SeedTree.empty SeedTree.empty :=
  ⟨SeedTree.empty_holds rb, SeedTree.empty_holds rb, fun i a h => by simp [SeedTree.empty] at h, fun i a h => by simp [SeedTree.empty] at h⟩

theorem getElem?_mono {α : Type} {l : List α} {i : Nat} {x : α} (h : l[i]? = some x) (m : List α) : (l ++ m)[i]? = some x := by
  rw [List.getElem?_append_left (List.getElem?_eq_some_iff.1 h).1]; exact h

theorem addPair_spec {rb : Nat → Nat → Bool} {Good : (Nat → ℝ) → (Nat → ℝ) → Nat → Nat → Nat → Prop} {us ls : List (Nat → ℝ)} {up lo : SeedTree} (h : SeedsStored rb Good us ls up lo)
    {u l : Nat → ℝ} {s1 s2 s3 : Nat} (hg : Good u l s1 s2 s3) :
    ∃ up' lo' us' ls', addPair rb up lo u l s1 s2 s3 = some (up', lo') ∧ SeedsStored rb Good us' ls' up' lo' ∧ us <+: us' ∧ ls <+: ls' ∧
      (∃ y ∈ us', StandsFor y u) ∧ ∃ y ∈ ls', StandsFor y l := by
  obtain ⟨il, el, hil⟩ := seedIndex_spec h.lower l
  obtain ⟨iu, eu, hiu⟩ := seedIndex_spec h.upper u
  -- the lower tree afterwards
  have hlo : ∃ lo' ls', (if il = lo.tree.num then addSeed rb lo l ⟨iu, s1, s2, s3⟩ else some lo) = some lo' ∧ lo'.Holds rb ls' ∧ ls <+: ls' ∧
      (∃ y, ls'[il]? = some y ∧ StandsFor y l) ∧ ∀ (i : Nat) (a : SeedAttr), lo'.attr[i]? = some a → lo.attr[i]? = some a ∨ (i = ls.length ∧ ls'[i]? = some l ∧ a = ⟨iu, s1, s2, s3⟩) := by
    rcases hil with ⟨hi, hd⟩ | ⟨hi, hd⟩
    · rw [if_neg (by rw [h.lower.num]; omega)]
      exact ⟨lo, ls, rfl, h.lower, List.prefix_refl _, ⟨_, List.getElem?_eq_getElem hi, Or.inr hd⟩, fun i a ha => Or.inl ha⟩
    · rw [if_pos (by rw [h.lower.num]; exact hi)]
      obtain ⟨t', e, h1, h2⟩ := addSeed_spec h.lower l hd ⟨iu, s1, s2, s3⟩
      refine ⟨t', ls ++ [l], e, h1, List.prefix_append _ _, ⟨l, by rw [hi]; simp, Or.inl rfl⟩, fun i a ha => ?_⟩
      rw [h2] at ha
      by_cases hlt : i < lo.attr.length
      · left; rwa [List.getElem?_append_left hlt] at ha
      · right
        have hl := (List.getElem?_eq_some_iff.1 ha).1
        simp only [List.length_append, List.length_singleton] at hl
        have : i = ls.length := by have := h.lower.attr; omega
        subst this
        rw [← h.lower.attr] at ha
        simp at ha
        exact ⟨rfl, by simp, ha.symm⟩
  have hup : ∃ up' us', (if iu = up.tree.num then addSeed rb up u ⟨il, s1, s2, s3⟩ else some up) = some up' ∧ up'.Holds rb us' ∧ us <+: us' ∧
      (∃ y, us'[iu]? = some y ∧ StandsFor y u) ∧ ∀ (i : Nat) (a : SeedAttr), up'.attr[i]? = some a → up.attr[i]? = some a ∨ (i = us.length ∧ us'[i]? = some u ∧ a = ⟨il, s1, s2, s3⟩) := by
    rcases hiu with ⟨hi, hd⟩ | ⟨hi, hd⟩
    · rw [if_neg (by rw [h.upper.num]; omega)]
      exact ⟨up, us, rfl, h.upper, List.prefix_refl _, ⟨_, List.getElem?_eq_getElem hi, Or.inr hd⟩, fun i a ha => Or.inl ha⟩
    · rw [if_pos (by rw [h.upper.num]; exact hi)]
      obtain ⟨t', e, h1, h2⟩ := addSeed_spec h.upper u hd ⟨il, s1, s2, s3⟩
      refine ⟨t', us ++ [u], e, h1, List.prefix_append _ _, ⟨u, by rw [hi]; simp, Or.inl rfl⟩, fun i a ha => ?_⟩
      rw [h2] at ha
      by_cases hlt : i < up.attr.length
      · left; rwa [List.getElem?_append_left hlt] at ha
      · right
        have hl := (List.getElem?_eq_some_iff.1 ha).1
        simp only [List.length_append, List.length_singleton] at hl
        have : i = us.length := by have := h.upper.attr; omega
        subst this
        rw [← h.upper.attr] at ha
        simp at ha
        exact ⟨rfl, by simp, ha.symm⟩
  obtain ⟨lo', ls', e1, a1, p1, ⟨yl, b1, b1'⟩, c1⟩ := hlo
  obtain ⟨up', us', e2, a2, p2, ⟨yu, b2, b2'⟩, c2⟩ := hup
  refine ⟨up', lo', us', ls', by unfold addPair; rw [el, eu]; simp only; rw [e1, e2], ⟨a2, a1, ?_, ?_⟩, p2, p1, ⟨yu, List.mem_of_getElem? b2, b2'⟩, ⟨yl, List.mem_of_getElem? b1, b1'⟩⟩
  · intro i a ha
    rcases c2 i a ha with ho | ⟨hi, hu, rfl⟩
    · obtain ⟨u0, l0, y, q1, q2, q3, q4⟩ := h.pairU i a ho
      obtain ⟨m1, rfl⟩ := p1
      obtain ⟨m2, rfl⟩ := p2
      exact ⟨u0, l0, y, getElem?_mono q1 _, q2, getElem?_mono q3 _, q4⟩
    · exact ⟨u, l, yl, hu, hg, b1, b1'⟩
  · intro i a ha
    rcases c1 i a ha with ho | ⟨hi, hl, rfl⟩
    · obtain ⟨u0, l0, y, q1, q2, q3, q4⟩ := h.pairL i a ho
      obtain ⟨m1, rfl⟩ := p1
      obtain ⟨m2, rfl⟩ := p2
      exact ⟨u0, l0, y, getElem?_mono q1 _, q2, getElem?_mono q3 _, q4⟩
    · exact ⟨u, l, yu, hl, hg, b2, b2'⟩

/-! ## Coverage by other spheres -/

/-- A tree of spheres with Lipschitz radii, or an empty one. -/
def TreeOrEmpty (P : PointStore ℝ) (ln : Links) (L : ℝ) : Prop := P.num = 0 ∨ (SphereTree P ln ∧ LipschitzRadii P L)

theorem coverList_spec {P : PointStore ℝ} {ln : Links} {L : ℝ} (hL0 : 0 ≤ L) (hL1 : L < 1) (h : TreeOrEmpty P ln L) (x : Nat → ℝ) (si sj sk : Nat) :
    ∃ l, coverList P ln L x si sj sk = some l ∧ (l = [] → ∀ s, s < P.num → s ≠ si → s ≠ sj → s ≠ sk → P.pts s 3 ≤ euclid 3 x (P.pts s)) ∧
      ∀ s ∈ l, s < P.num ∧ s ≠ si ∧ s ≠ sj ∧ s ≠ sk ∧ euclid 3 x (P.pts s) < P.pts s 3 + 1e-10 := by
  unfold coverList
  by_cases h0 : P.num = 0
  · rw [if_pos h0]; exact ⟨[], rfl, fun _ s hs => by omega, by simp⟩
  · rw [if_neg h0]
    obtain ⟨hT, hlip⟩ := h.resolve_left h0
    obtain ⟨c, ec, hc⟩ := closestSphere_spec hT x
    have hrc := hT.nonneg c hc
    have hdc := euclid_nonneg 3 x (P.pts c)
    have h1L : 0 < 1 - L := by linarith
    obtain ⟨l, el, hnd, hl1, hl2⟩ := spheresNear_spec hT x (R := (P.pts c 3 + L * euclid 3 x (P.pts c)) / (1 - L))
      (div_nonneg (add_nonneg hrc (mul_nonneg hL0 hdc)) h1L.le)
    rw [ec]; simp only [hT.radius]; rw [el]
    refine ⟨_, rfl, fun he s hs n1 n2 n3 => ?_, fun s hs => ?_⟩
    · by_contra hlt
      push Not at hlt
      have hin : s ∈ l := by
        refine hl2 s hs ?_
        rw [lt_div_iff₀ h1L]
        have := reach_lip hL0 hlip hc hs x
        nlinarith
      have := List.filter_eq_nil_iff.1 he s hin
      simp only [Bool.and_eq_true, Bool.not_eq_true', Bool.or_eq_false_iff, beq_eq_false_iff_ne, decide_eq_true_eq, not_and, not_lt, distance_eq] at this
      have := this ⟨⟨n1, n2⟩, n3⟩
      norm_num at this
      linarith
    · simp only [List.mem_filter, Bool.and_eq_true, Bool.not_eq_true', Bool.or_eq_false_iff, beq_eq_false_iff_ne, decide_eq_true_eq, distance_eq] at hs
      obtain ⟨q1, ⟨⟨q2, q3⟩, q4⟩, q5⟩ := hs
      refine ⟨hl1 s q1, q2, q3, q4, ?_⟩
      norm_num at q5 ⊢
      exact q5

/-- What the theorems assume of the spheres: each tree empty or a sphere tree with Lipschitz radii. -/
structure SphereSet.OK (Z : SphereSet) (L : ℝ) : Prop where
  nonneg : 0 ≤ L
  lt : L < 1
  s : TreeOrEmpty Z.S Z.lnS L
  e : TreeOrEmpty Z.E Z.lnE L
  c : TreeOrEmpty Z.C Z.lnC L

/-- Number of all spheres. -/
def SphereSet.total (Z : SphereSet) : Nat := Z.S.num + Z.E.num + Z.C.num

theorem coverPair_spec {Z : SphereSet} {L : ℝ} (h : Z.OK L) (i j k : Nat) (hi : i < Z.total) (hj : j < Z.total) (hk : k < Z.total) (u l : Nat → ℝ) :
    ∃ cu cl cs, coverPair Z L i j k u l = some (cu, cl, cs) ∧
      (cu = false → ∀ s, s < Z.total → s ≠ i → s ≠ j → s ≠ k → Z.at s 3 ≤ euclid 3 u (Z.at s)) ∧
      (cl = false → ∀ s, s < Z.total → s ≠ i → s ≠ j → s ≠ k → Z.at s 3 ≤ euclid 3 l (Z.at s)) ∧
      ((∀ s, s < Z.total → s ≠ i → s ≠ j → s ≠ k → Z.at s 3 + 1e-10 ≤ euclid 3 u (Z.at s)) → cu = false) ∧
      ((∀ s, s < Z.total → s ≠ i → s ≠ j → s ≠ k → Z.at s 3 + 1e-10 ≤ euclid 3 l (Z.at s)) → cl = false) ∧
      ∀ s ∈ cs, s < Z.total := by
  -- each tree in terms of global indices
  have gS : ∀ x, ∃ m, coverList Z.S Z.lnS L x (localS Z i) (localS Z j) (localS Z k) = some m ∧
      (m = [] → ∀ s, s < Z.S.num → s ≠ i → s ≠ j → s ≠ k → Z.at s 3 ≤ euclid 3 x (Z.at s)) ∧
      (∀ s ∈ m, s < Z.S.num ∧ s ≠ i ∧ s ≠ j ∧ s ≠ k ∧ euclid 3 x (Z.at s) < Z.at s 3 + 1e-10) := by
    intro x
    obtain ⟨m, e, q1, q2⟩ := coverList_spec h.nonneg h.lt h.s x (localS Z i) (localS Z j) (localS Z k)
    have nl : ∀ {s q}, s < Z.S.num → (s ≠ localS Z q ↔ s ≠ q) := by
      intro s q hs; unfold localS; split <;> omega
    have at_s : ∀ {s}, s < Z.S.num → Z.at s = Z.S.pts s := fun hs => by unfold SphereSet.at; rw [if_pos hs]
    refine ⟨m, e, fun hm s hs n1 n2 n3 => ?_, fun s hs => ?_⟩
    · rw [at_s hs]; exact q1 hm s hs ((nl hs).2 n1) ((nl hs).2 n2) ((nl hs).2 n3)
    · obtain ⟨a1, a2, a3, a4, a5⟩ := q2 s hs
      rw [at_s a1]; exact ⟨a1, (nl a1).1 a2, (nl a1).1 a3, (nl a1).1 a4, a5⟩
  have gE : ∀ x, ∃ m, coverList Z.E Z.lnE L x (localE Z i) (localE Z j) (localE Z k) = some m ∧
      (m = [] → ∀ s, Z.S.num ≤ s → s < Z.S.num + Z.E.num → s ≠ i → s ≠ j → s ≠ k → Z.at s 3 ≤ euclid 3 x (Z.at s)) ∧
      (∀ s ∈ m, s < Z.E.num ∧ s + Z.S.num ≠ i ∧ s + Z.S.num ≠ j ∧ s + Z.S.num ≠ k ∧ euclid 3 x (Z.at (s + Z.S.num)) < Z.at (s + Z.S.num) 3 + 1e-10) := by
    intro x
    obtain ⟨m, e, q1, q2⟩ := coverList_spec h.nonneg h.lt h.e x (localE Z i) (localE Z j) (localE Z k)
    have nl : ∀ {s q}, s < Z.E.num → (s ≠ localE Z q ↔ s + Z.S.num ≠ q) := by
      intro s q hs; unfold localE; split <;> omega
    have at_s : ∀ {s}, s < Z.E.num → Z.at (s + Z.S.num) = Z.E.pts s := fun hs => by
      unfold SphereSet.at; rw [if_neg (by omega), if_pos (by omega), Nat.add_sub_cancel]
    refine ⟨m, e, fun hm s h1 h2 n1 n2 n3 => ?_, fun s hs => ?_⟩
    · obtain ⟨s, rfl⟩ : ∃ t, s = t + Z.S.num := ⟨s - Z.S.num, by omega⟩
      have hs : s < Z.E.num := by omega
      rw [at_s hs]; exact q1 hm s hs ((nl hs).2 n1) ((nl hs).2 n2) ((nl hs).2 n3)
    · obtain ⟨a1, a2, a3, a4, a5⟩ := q2 s hs
      rw [at_s a1]; exact ⟨a1, (nl a1).1 a2, (nl a1).1 a3, (nl a1).1 a4, a5⟩
  have gC : ∀ x, ∃ m, coverList Z.C Z.lnC L x (localC Z i) (localC Z j) (localC Z k) = some m ∧
      (m = [] → ∀ s, Z.S.num + Z.E.num ≤ s → s < Z.total → s ≠ i → s ≠ j → s ≠ k → Z.at s 3 ≤ euclid 3 x (Z.at s)) ∧
      (∀ s ∈ m, s < Z.C.num ∧ s + Z.S.num + Z.E.num ≠ i ∧ s + Z.S.num + Z.E.num ≠ j ∧ s + Z.S.num + Z.E.num ≠ k ∧
        euclid 3 x (Z.at (s + Z.S.num + Z.E.num)) < Z.at (s + Z.S.num + Z.E.num) 3 + 1e-10) := by
    intro x
    obtain ⟨m, e, q1, q2⟩ := coverList_spec h.nonneg h.lt h.c x (localC Z i) (localC Z j) (localC Z k)
    have nl : ∀ {s q}, s < Z.C.num → (s ≠ localC Z q ↔ s + Z.S.num + Z.E.num ≠ q) := by
      intro s q hs; unfold localC; split <;> omega
    have at_s : ∀ {s}, s < Z.C.num → Z.at (s + Z.S.num + Z.E.num) = Z.C.pts s := fun hs => by
      unfold SphereSet.at; rw [if_neg (by omega), if_neg (by omega)]; congr 1; omega
    refine ⟨m, e, fun hm s h1 h2 n1 n2 n3 => ?_, fun s hs => ?_⟩
    · unfold SphereSet.total at h2
      obtain ⟨s, rfl⟩ : ∃ t, s = t + Z.S.num + Z.E.num := ⟨s - Z.S.num - Z.E.num, by omega⟩
      have hs : s < Z.C.num := by omega
      rw [at_s hs]; exact q1 hm s hs ((nl hs).2 n1) ((nl hs).2 n2) ((nl hs).2 n3)
    · obtain ⟨a1, a2, a3, a4, a5⟩ := q2 s hs
      rw [at_s a1]; exact ⟨a1, (nl a1).1 a2, (nl a1).1 a3, (nl a1).1 a4, a5⟩
  obtain ⟨su, e1, su1, su2⟩ := gS u
  obtain ⟨sl, e2, sl1, sl2⟩ := gS l
  obtain ⟨eu, e3, eu1, eu2⟩ : ∃ m, (if su = [] then coverList Z.E Z.lnE L u (localE Z i) (localE Z j) (localE Z k) else some []) = some m ∧
      (su = [] → m = [] → ∀ s, Z.S.num ≤ s → s < Z.S.num + Z.E.num → s ≠ i → s ≠ j → s ≠ k → Z.at s 3 ≤ euclid 3 u (Z.at s)) ∧
      (∀ s ∈ m, s < Z.E.num ∧ s + Z.S.num ≠ i ∧ s + Z.S.num ≠ j ∧ s + Z.S.num ≠ k ∧ euclid 3 u (Z.at (s + Z.S.num)) < Z.at (s + Z.S.num) 3 + 1e-10) := by
    by_cases hs : su = []
    · rw [if_pos hs]; obtain ⟨m, a, b, c⟩ := gE u; exact ⟨m, a, fun _ => b, c⟩
    · rw [if_neg hs]; exact ⟨[], rfl, fun h => absurd h hs, by simp⟩
  obtain ⟨el, e4, el1, el2⟩ : ∃ m, (if sl = [] then coverList Z.E Z.lnE L l (localE Z i) (localE Z j) (localE Z k) else some []) = some m ∧
      (sl = [] → m = [] → ∀ s, Z.S.num ≤ s → s < Z.S.num + Z.E.num → s ≠ i → s ≠ j → s ≠ k → Z.at s 3 ≤ euclid 3 l (Z.at s)) ∧
      (∀ s ∈ m, s < Z.E.num ∧ s + Z.S.num ≠ i ∧ s + Z.S.num ≠ j ∧ s + Z.S.num ≠ k ∧ euclid 3 l (Z.at (s + Z.S.num)) < Z.at (s + Z.S.num) 3 + 1e-10) := by
    by_cases hs : sl = []
    · rw [if_pos hs]; obtain ⟨m, a, b, c⟩ := gE l; exact ⟨m, a, fun _ => b, c⟩
    · rw [if_neg hs]; exact ⟨[], rfl, fun h => absurd h hs, by simp⟩
  obtain ⟨cu, e5, cu1, cu2⟩ : ∃ m, (if su = [] ∧ eu = [] then coverList Z.C Z.lnC L u (localC Z i) (localC Z j) (localC Z k) else some []) = some m ∧
      (su = [] → eu = [] → m = [] → ∀ s, Z.S.num + Z.E.num ≤ s → s < Z.total → s ≠ i → s ≠ j → s ≠ k → Z.at s 3 ≤ euclid 3 u (Z.at s)) ∧
      (∀ s ∈ m, s < Z.C.num ∧ s + Z.S.num + Z.E.num ≠ i ∧ s + Z.S.num + Z.E.num ≠ j ∧ s + Z.S.num + Z.E.num ≠ k ∧
        euclid 3 u (Z.at (s + Z.S.num + Z.E.num)) < Z.at (s + Z.S.num + Z.E.num) 3 + 1e-10) := by
    by_cases hs : su = [] ∧ eu = []
    · rw [if_pos hs]; obtain ⟨m, a, b, c⟩ := gC u; exact ⟨m, a, fun _ _ => b, c⟩
    · rw [if_neg hs]; exact ⟨[], rfl, fun h h' => absurd ⟨h, h'⟩ hs, by simp⟩
  obtain ⟨cl, e6, cl1, cl2⟩ : ∃ m, (if sl = [] ∧ el = [] then coverList Z.C Z.lnC L l (localC Z i) (localC Z j) (localC Z k) else some []) = some m ∧
      (sl = [] → el = [] → m = [] → ∀ s, Z.S.num + Z.E.num ≤ s → s < Z.total → s ≠ i → s ≠ j → s ≠ k → Z.at s 3 ≤ euclid 3 l (Z.at s)) ∧
      (∀ s ∈ m, s < Z.C.num ∧ s + Z.S.num + Z.E.num ≠ i ∧ s + Z.S.num + Z.E.num ≠ j ∧ s + Z.S.num + Z.E.num ≠ k ∧
        euclid 3 l (Z.at (s + Z.S.num + Z.E.num)) < Z.at (s + Z.S.num + Z.E.num) 3 + 1e-10) := by
    by_cases hs : sl = [] ∧ el = []
    · rw [if_pos hs]; obtain ⟨m, a, b, c⟩ := gC l; exact ⟨m, a, fun _ _ => b, c⟩
    · rw [if_neg hs]; exact ⟨[], rfl, fun h h' => absurd ⟨h, h'⟩ hs, by simp⟩
  have nilOf : ∀ {m : List Nat}, (∀ s ∈ m, False) → m = [] := fun h => List.eq_nil_iff_forall_not_mem.2 h
  refine ⟨_, _, _, by unfold coverPair; rw [e1, e2]; simp only; rw [e3, e4]; simp only; rw [e5, e6], ?_, ?_, ?_, ?_, ?_⟩
  · intro hn s hs n1 n2 n3
    simp only [Bool.not_eq_false', List.isEmpty_iff, List.append_eq_nil_iff] at hn
    obtain ⟨⟨z1, z2⟩, z3⟩ := hn
    by_cases w1 : s < Z.S.num
    · exact su1 z1 s w1 n1 n2 n3
    · by_cases w2 : s < Z.S.num + Z.E.num
      · exact eu1 z1 z2 s (by omega) w2 n1 n2 n3
      · exact cu1 z1 z2 z3 s (by omega) hs n1 n2 n3
  · intro hn s hs n1 n2 n3
    simp only [Bool.not_eq_false', List.isEmpty_iff, List.append_eq_nil_iff] at hn
    obtain ⟨⟨z1, z2⟩, z3⟩ := hn
    by_cases w1 : s < Z.S.num
    · exact sl1 z1 s w1 n1 n2 n3
    · by_cases w2 : s < Z.S.num + Z.E.num
      · exact el1 z1 z2 s (by omega) w2 n1 n2 n3
      · exact cl1 z1 z2 z3 s (by omega) hs n1 n2 n3
  · intro hf
    simp only [Bool.not_eq_false', List.isEmpty_iff, List.append_eq_nil_iff]
    refine ⟨⟨nilOf fun s hs => ?_, nilOf fun s hs => ?_⟩, nilOf fun s hs => ?_⟩
    · obtain ⟨a1, a2, a3, a4, a5⟩ := su2 s hs
      linarith [hf s (by unfold SphereSet.total; omega) a2 a3 a4]
    · obtain ⟨a1, a2, a3, a4, a5⟩ := eu2 s hs
      linarith [hf (s + Z.S.num) (by unfold SphereSet.total; omega) a2 a3 a4]
    · obtain ⟨a1, a2, a3, a4, a5⟩ := cu2 s hs
      linarith [hf (s + Z.S.num + Z.E.num) (by unfold SphereSet.total; omega) a2 a3 a4]
  · intro hf
    simp only [Bool.not_eq_false', List.isEmpty_iff, List.append_eq_nil_iff]
    refine ⟨⟨nilOf fun s hs => ?_, nilOf fun s hs => ?_⟩, nilOf fun s hs => ?_⟩
    · obtain ⟨a1, a2, a3, a4, a5⟩ := sl2 s hs
      linarith [hf s (by unfold SphereSet.total; omega) a2 a3 a4]
    · obtain ⟨a1, a2, a3, a4, a5⟩ := el2 s hs
      linarith [hf (s + Z.S.num) (by unfold SphereSet.total; omega) a2 a3 a4]
    · obtain ⟨a1, a2, a3, a4, a5⟩ := cl2 s hs
      linarith [hf (s + Z.S.num + Z.E.num) (by unfold SphereSet.total; omega) a2 a3 a4]
  · intro s hs
    unfold SphereSet.total
    simp only [List.mem_append, List.mem_map] at hs
    rcases hs with ((hs | hs) | ⟨t, ht | ht, rfl⟩) | ⟨t, ht | ht, rfl⟩
    · have := (su2 s hs).1; omega
    · have := (sl2 s hs).1; omega
    · have := (eu2 t ht).1; omega
    · have := (el2 t ht).1; omega
    · have := (cu2 t ht).1; omega
    · have := (cl2 t ht).1; omega

/-! ## One triple -/

/-- Three spheres treated together: a surface sphere and two later ones, pairwise overlapping. -/
structure MeetingTriple (Z : SphereSet) (i j k : Nat) : Prop where
  surf : i < Z.S.num
  ij : i < j
  jk : j < k
  last : k < Z.total
  meet_ij : euclid 3 (Z.at i) (Z.at j) ≤ Z.at i 3 + Z.at j 3 - 1e-10
  meet_ik : euclid 3 (Z.at i) (Z.at k) ≤ Z.at i 3 + Z.at k 3 - 1e-10
  meet_jk : euclid 3 (Z.at j) (Z.at k) ≤ Z.at j 3 + Z.at k 3 - 1e-10

/-- `x` is on the boundary of all three spheres. -/
def OnThree (Z : SphereSet) (i j k : Nat) (x : Nat → ℝ) : Prop :=
  euclid 3 x (Z.at i) = Z.at i 3 ∧ euclid 3 x (Z.at j) = Z.at j 3 ∧ euclid 3 x (Z.at k) = Z.at k 3

/-- `u` and `l` are the upper and lower seed of the spheres `i`, `j`, `k`; `face i` are the corners of the face sphere `i` was placed on. -/
structure SeedPair (Z : SphereSet) (face : Nat → Fin 3 → V3) (u l : Nat → ℝ) (i j k : Nat) : Prop where
  surf : i < Z.S.num
  later : i < j ∧ i < k ∧ j ≠ k
  valid : j < Z.total ∧ k < Z.total
  upper : OnThree Z i j k u
  lower : OnThree Z i j k l
  proper : areaVec (centreTri (Z.at i) (Z.at j) (Z.at k)) ≠ 0
  mirror : MirrorPair (Z.at i) (Z.at j) (Z.at k) u l
  apart : 2e-10 ≤ euclid 3 u l
  side : 0 ≤ dot3 (triNormal (face i)).1 (toV3 (u - l))
  turned : k < j → 0 < dot3 (triNormal (face i)).1 (toV3 (u - l))
  orient : 0 ≤ dot3 (areaVec (centreTri (Z.at i) (Z.at j) (Z.at k))) (toV3 (u - l))
  free : ∀ s, s < Z.total → s ≠ i → s ≠ j → s ≠ k → Z.at s 3 ≤ euclid 3 u (Z.at s) ∧ Z.at s 3 ≤ euclid 3 l (Z.at s)
  size : u 3 = min (min (Z.at i 3) (Z.at j 3)) (Z.at k 3) ∧ l 3 = min (min (Z.at i 3) (Z.at j 3)) (Z.at k 3)

/-- Every mirror pair of points on the three spheres that is at least `1e-10` outside all other spheres is stored: one of the points among `us`, the other among `ls`, up to
`1e-10`. -/
def PairStored (Z : SphereSet) (us ls : List (Nat → ℝ)) (i j k : Nat) : Prop :=
  ∀ m w x y : Nat → ℝ, InPlane (Z.at i) (Z.at j) (Z.at k) m → ip 3 w (Z.at j - Z.at i) = 0 → ip 3 w (Z.at k - Z.at i) = 0 → (∀ d, d < 3 → x d = m d + w d ∧ y d = m d - w d) →
    OnThree Z i j k x → euclid 3 m (Z.at i) ≤ Z.at i 3 - 1e-10 → 1e-10 ≤ triArea (centreTri (Z.at i) (Z.at j) (Z.at k)) →
    (∀ s, s < Z.total → s ≠ i → s ≠ j → s ≠ k → Z.at s 3 + 1e-10 ≤ euclid 3 x (Z.at s) ∧ Z.at s 3 + 1e-10 ≤ euclid 3 y (Z.at s)) →
    ∃ u ∈ us, ∃ l ∈ ls, (euclid 3 x u < 1e-10 ∧ euclid 3 y l < 1e-10) ∨ (euclid 3 y u < 1e-10 ∧ euclid 3 x l < 1e-10)

/-- Some sphere other than `i`, `j`, `k` comes within `1e-10` of one of the two points of the triple. -/
def NearFourth (Z : SphereSet) (i j k : Nat) : Prop :=
  ∃ x s, OnThree Z i j k x ∧ s < Z.total ∧ s ≠ i ∧ s ≠ j ∧ s ≠ k ∧ euclid 3 x (Z.at s) < Z.at s 3 + 1e-10

theorem SphereSet.OK.radius {Z : SphereSet} {L : ℝ} (h : Z.OK L) {i : Nat} (hi : i < Z.total) : 0 ≤ Z.at i 3 := by
  unfold SphereSet.total at hi
  unfold SphereSet.at
  split
  · next h1 =>
    rcases h.s with h0 | h0
    · omega
    · exact h0.1.nonneg _ h1
  · split
    · next h1 h2 =>
      rcases h.e with h0 | h0
      · omega
      · exact h0.1.nonneg _ (by omega)
    · next h1 h2 =>
      rcases h.c with h0 | h0
      · omega
      · exact h0.1.nonneg _ (by omega)

theorem euclid_congr3 {x x' y y' : Nat → ℝ} (hx : ∀ d, d < 3 → x d = x' d) (hy : ∀ d, d < 3 → y d = y' d) : euclid 3 x y = euclid 3 x' y' := by
  unfold euclid
  congr 1
  apply Finset.sum_congr rfl
  intro d hd
  rw [hx d (Finset.mem_range.1 hd), hy d (Finset.mem_range.1 hd)]

theorem StandsFor.dist {y x : Nat → ℝ} (h : StandsFor y x) : euclid 3 x y < 1e-10 := by
  rcases h with rfl | h
  · have : euclid 3 y y = 0 := by unfold euclid; simp
    rw [this]; norm_num
  · exact h

theorem areaVec_swap (a b c : Nat → ℝ) (v : V3) : dot3 (areaVec (centreTri a c b)) v = -dot3 (areaVec (centreTri a b c)) v := by
  simp only [dot3, areaVec, cross3, centreTri, toV3, Matrix.cons_val_zero, Matrix.cons_val_one, Matrix.cons_val_two, Matrix.head_cons, Matrix.tail_cons]
  norm_num
  ring

theorem MirrorPair.swap {a b c u l : Nat → ℝ} (h : MirrorPair a b c u l) : MirrorPair a c b u l := by
  obtain ⟨m, w, ⟨s, t, hm⟩, h1, h2, h3⟩ := h
  exact ⟨m, w, ⟨t, s, fun d hd => by rw [hm d hd]; ring⟩, h2, h1, h3⟩

theorem seedAt_spec (pv : Nat → ℝ) (v : ℝ) (n : V3) (r : ℝ) : (∀ d, d < 3 → seedAt pv v n r d = pv d + v * ofV3 n d) ∧ seedAt pv v n r 3 = r := by
  constructor
  · intro d hd; unfold seedAt ofV3; rw [dif_pos hd, dif_pos hd]
  · unfold seedAt; rw [dif_neg (by norm_num)]

/-- The geometry of a pair, given that no other sphere reaches it. -/
theorem seedPair_of {Z : SphereSet} {L : ℝ} (hZ : Z.OK L) (face : Nat → Fin 3 → V3) {i j k : Nat} (ht : MeetingTriple Z i j k) (hw : WideTriple (Z.at i) (Z.at j) (Z.at k))
    {pv : Nat → ℝ} (hp : IsPowerVertex (Z.at i) (Z.at j) (Z.at k) pv) (hh : euclid 3 pv (Z.at i) ≤ Z.at i 3 - 1e-10) {v r : ℝ} {n : V3 × Bool} {u l : Nat → ℝ}
    (hv : v = Real.sqrt (Z.at i 3 * Z.at i 3 - euclid 3 pv (Z.at i) * euclid 3 pv (Z.at i))) (hn : n = seedNormal (Z.at i) (Z.at j) (Z.at k) (face i))
    (hu : u = seedAt pv v n.1 r) (hl : l = seedAt pv (-v) n.1 r) :
    OnThree Z i j k u ∧ OnThree Z i j k l ∧
      (r = min (min (Z.at i 3) (Z.at j 3)) (Z.at k 3) →
        (∀ s, s < Z.total → s ≠ i → s ≠ j → s ≠ k → Z.at s 3 ≤ euclid 3 u (Z.at s) ∧ Z.at s 3 ≤ euclid 3 l (Z.at s)) →
        SeedPair Z face u l i (if n.2 then k else j) (if n.2 then j else k)) := by
  have hj : j < Z.total := lt_trans ht.jk ht.last
  have hi : i < Z.total := lt_trans ht.ij hj
  have ri := hZ.radius hi
  have rj := hZ.radius hj
  have rk := hZ.radius ht.last
  obtain ⟨n1, n2, n3, n4⟩ := seedNormal_spec hw (face i)
  rw [← hn] at n1 n2 n3 n4
  have h0 := euclid_nonneg 3 pv (Z.at i)
  have hle : euclid 3 pv (Z.at i) ≤ Z.at i 3 := le_trans hh (by norm_num)
  have hsq : v ^ 2 = Z.at i 3 ^ 2 - euclid 3 pv (Z.at i) ^ 2 := by
    rw [hv, Real.sq_sqrt (by nlinarith)]; ring
  have hv0 : 0 ≤ v := by rw [hv]; exact Real.sqrt_nonneg _
  obtain ⟨u1, u2⟩ := seedAt_spec pv v n.1 r
  obtain ⟨l1, l2⟩ := seedAt_spec pv (-v) n.1 r
  rw [← hu] at u1 u2
  rw [← hl] at l1 l2
  have onu : OnThree Z i j k u := pair_on_spheres ri rj rk hp n1 n2 n3 hle hsq u1
  have onl : OnThree Z i j k l := pair_on_spheres ri rj rk hp n1 n2 n3 hle (by rw [neg_sq]; exact hsq) l1
  refine ⟨onu, onl, fun hr hfree => ?_⟩
  have hmir : MirrorPair (Z.at i) (Z.at j) (Z.at k) u l := by
    refine ⟨pv, v • ofV3 n.1, hp.plane, by rw [ip_smul_left, n2, mul_zero], by rw [ip_smul_left, n3, mul_zero], fun d hd => ⟨u1 d hd, ?_⟩⟩
    rw [l1 d hd]; simp only [Pi.smul_apply, smul_eq_mul]; ring
  have hdiff : ∀ d : Fin 3, toV3 (u - l) d = 2 * v * n.1 d := by
    intro d
    have e1 := u1 d.val d.isLt
    have e2 := l1 d.val d.isLt
    have e3 : ofV3 n.1 d.val = n.1 d := by unfold ofV3; rw [dif_pos d.isLt]
    show u d.val - l d.val = _
    rw [e1, e2, e3]; ring
  have hdot : ∀ q : V3, dot3 q (toV3 (u - l)) = 2 * v * dot3 q n.1 := by
    intro q; unfold dot3; rw [hdiff 0, hdiff 1, hdiff 2]; ring
  have hv1 : 1e-10 ≤ v := by
    have : (1e-10 : ℝ) ^ 2 ≤ v ^ 2 := by rw [hsq]; nlinarith
    exact (sq_le_sq₀ (by norm_num) hv0).1 this
  have hapart : 2e-10 ≤ euclid 3 u l := by
    have e : euclid 3 u l ^ 2 = (2 * v) ^ 2 := by
      rw [euclid_ip, ip3]
      simp only [Pi.sub_apply]
      rw [u1 0 (by norm_num), u1 1 (by norm_num), u1 2 (by norm_num), l1 0 (by norm_num), l1 1 (by norm_num), l1 2 (by norm_num)]
      rw [ip3] at n1
      linear_combination 4 * v ^ 2 * n1
    have e' : euclid 3 u l = 2 * v := (sq_eq_sq₀ (euclid_nonneg 3 u l) (by linarith)).1 e
    rw [e']; linarith
  have hside : 0 ≤ dot3 (triNormal (face i)).1 (toV3 (u - l)) := by
    rw [hdot]; exact mul_nonneg (by linarith) n4
  obtain ⟨-, hunit, q, hq, hq'⟩ := wide_normal hw
  have hA : 0 < dot3 (areaVec (centreTri (Z.at i) (Z.at j) (Z.at k))) (areaVec (centreTri (Z.at i) (Z.at j) (Z.at k))) := by
    refine lt_of_le_of_ne (dot3_self_nonneg _) fun h0 => ?_
    have e : dot3 (triNormal (centreTri (Z.at i) (Z.at j) (Z.at k))).1 (triNormal (centreTri (Z.at i) (Z.at j) (Z.at k))).1 =
        q ^ 2 * dot3 (areaVec (centreTri (Z.at i) (Z.at j) (Z.at k))) (areaVec (centreTri (Z.at i) (Z.at j) (Z.at k))) := by
      unfold dot3; rw [hq' 0, hq' 1, hq' 2]; ring
    rw [hunit, ← h0, mul_zero] at e
    exact one_ne_zero e
  have hnA : dot3 (areaVec (centreTri (Z.at i) (Z.at j) (Z.at k))) (triNormal (centreTri (Z.at i) (Z.at j) (Z.at k))).1 =
      q * dot3 (areaVec (centreTri (Z.at i) (Z.at j) (Z.at k))) (areaVec (centreTri (Z.at i) (Z.at j) (Z.at k))) := by
    unfold dot3; rw [hq' 0, hq' 1, hq' 2]; ring
  have hpos : 0 ≤ dot3 (areaVec (centreTri (Z.at i) (Z.at j) (Z.at k))) (triNormal (centreTri (Z.at i) (Z.at j) (Z.at k))).1 := by
    rw [hnA]; exact mul_nonneg hq.le (dot3_self_nonneg _)
  by_cases hrev : n.2 = true
  · rw [if_pos hrev, if_pos hrev]
    have hn1 : n.1 = fun d => -(triNormal (centreTri (Z.at i) (Z.at j) (Z.at k))).1 d := by
      rw [hn] at hrev ⊢
      unfold seedNormal at hrev ⊢
      simp only at hrev ⊢
      split
      · rfl
      · next hc => rw [if_neg hc] at hrev; simp at hrev
    refine ⟨ht.surf, ⟨lt_trans ht.ij ht.jk, ht.ij, ht.jk.ne'⟩, ⟨ht.last, hj⟩, ⟨onu.1, onu.2.2, onu.2.1⟩, ⟨onl.1, onl.2.2, onl.2.1⟩, fun h0 => ?_, hmir.swap, hapart, hside, fun _ => ?_, ?_,
      fun s hs a1 a2 a3 => hfree s hs a1 a3 a2, ?_⟩
    · have e := areaVec_swap (Z.at i) (Z.at j) (Z.at k) (areaVec (centreTri (Z.at i) (Z.at j) (Z.at k)))
      rw [h0] at e
      have : dot3 (0 : V3) (areaVec (centreTri (Z.at i) (Z.at j) (Z.at k))) = 0 := by simp [dot3]
      linarith
    · rw [hdot]
      refine mul_pos (by linarith) ?_
      have hlt : dot3 (triNormal (face i)).1 (triNormal (centreTri (Z.at i) (Z.at j) (Z.at k))).1 < 0 := by
        rw [hn] at hrev
        unfold seedNormal at hrev
        simp only at hrev
        by_contra hc
        rw [if_neg hc] at hrev
        simp at hrev
      rw [hn1]
      have : dot3 (triNormal (face i)).1 (fun d => -(triNormal (centreTri (Z.at i) (Z.at j) (Z.at k))).1 d) =
          -dot3 (triNormal (face i)).1 (triNormal (centreTri (Z.at i) (Z.at j) (Z.at k))).1 := by unfold dot3; ring
      linarith
    · rw [areaVec_swap, hdot, hn1]
      have : dot3 (areaVec (centreTri (Z.at i) (Z.at j) (Z.at k))) (fun d => -(triNormal (centreTri (Z.at i) (Z.at j) (Z.at k))).1 d) =
          -dot3 (areaVec (centreTri (Z.at i) (Z.at j) (Z.at k))) (triNormal (centreTri (Z.at i) (Z.at j) (Z.at k))).1 := by unfold dot3; ring
      rw [this]; nlinarith
    · rw [u2, l2, hr, min_right_comm]; exact ⟨rfl, rfl⟩
  · rw [if_neg hrev, if_neg hrev]
    have hn1 : n.1 = (triNormal (centreTri (Z.at i) (Z.at j) (Z.at k))).1 := by
      rw [hn] at hrev ⊢
      unfold seedNormal at hrev ⊢
      simp only at hrev ⊢
      split
      · next hc => rw [if_pos hc] at hrev; simp at hrev
      · rfl
    refine ⟨ht.surf, ⟨ht.ij, lt_trans ht.ij ht.jk, ht.jk.ne⟩, ⟨hj, ht.last⟩, onu, onl, fun h0 => ?_, hmir, hapart, hside, fun hlt => absurd ht.jk (not_lt.2 hlt.le), ?_, hfree, by rw [u2, l2, hr]; exact ⟨rfl, rfl⟩⟩
    · rw [h0] at hA
      simp [dot3] at hA
    rw [hdot, hn1]; exact mul_nonneg (by linarith) hpos

/-- A mirror pair on the three spheres is the pair the code computes. -/
theorem pair_unique {Z : SphereSet} {L : ℝ} (hZ : Z.OK L) {i j k : Nat} (ht : MeetingTriple Z i j k) (hw : WideTriple (Z.at i) (Z.at j) (Z.at k)) {pv m w x y : Nat → ℝ}
    (hpu : ∀ q, IsPowerVertex (Z.at i) (Z.at j) (Z.at k) q → ∀ d, d < 3 → q d = pv d) (hm : InPlane (Z.at i) (Z.at j) (Z.at k) m) (hw1 : ip 3 w (Z.at j - Z.at i) = 0)
    (hw2 : ip 3 w (Z.at k - Z.at i) = 0) (hxy : ∀ d, d < 3 → x d = m d + w d ∧ y d = m d - w d) (hon : OnThree Z i j k x) (hlt : euclid 3 m (Z.at i) ≤ Z.at i 3 - 1e-10)
    {n : V3} (n1 : ip 3 (ofV3 n) (ofV3 n) = 1) (n2 : ip 3 (ofV3 n) (Z.at j - Z.at i) = 0) (n3 : ip 3 (ofV3 n) (Z.at k - Z.at i) = 0) {v r : ℝ}
    (hv : v = Real.sqrt (Z.at i 3 * Z.at i 3 - euclid 3 pv (Z.at i) * euclid 3 pv (Z.at i))) :
    (∀ d, d < 3 → m d = pv d) ∧ ((∀ d, d < 3 → seedAt pv v n r d = x d ∧ seedAt pv (-v) n r d = y d) ∨ ∀ d, d < 3 → seedAt pv v n r d = y d ∧ seedAt pv (-v) n r d = x d) := by
  have hj : j < Z.total := lt_trans ht.jk ht.last
  have hi : i < Z.total := lt_trans ht.ij hj
  have ri := hZ.radius hi
  set a := Z.at i with ha
  set b := Z.at j with hb
  set c := Z.at k with hc
  -- distances from x
  have hd : ∀ q, InPlane a b c q → euclid 3 x q ^ 2 = euclid 3 m q ^ 2 + ip 3 w w := by
    intro q hq
    have e1 := ip_plane hm hw1 hw2
    have e2 := ip_plane hq hw1 hw2
    rw [euclid_ip, euclid_ip]
    rw [ip3] at e1 e2
    rw [ip3, ip3, ip3]
    simp only [Pi.sub_apply] at *
    rw [(hxy 0 (by norm_num)).1, (hxy 1 (by norm_num)).1, (hxy 2 (by norm_num)).1]
    linear_combination 2 * e1 - 2 * e2
  have pa : InPlane a b c a := ⟨0, 0, fun d _ => by ring⟩
  have pb : InPlane a b c b := ⟨1, 0, fun d _ => by ring⟩
  have pc : InPlane a b c c := ⟨0, 1, fun d _ => by ring⟩
  have da := hd a pa
  have db := hd b pb
  have dc := hd c pc
  obtain ⟨o1, o2, o3⟩ := hon
  rw [← ha] at o1; rw [← hb] at o2; rw [← hc] at o3
  rw [o1] at da; rw [o2] at db; rw [o3] at dc
  have hmp : ∀ d, d < 3 → m d = pv d := hpu m ⟨by unfold power; linarith, by unfold power; linarith, hm⟩
  refine ⟨hmp, ?_⟩
  have hem : euclid 3 m a = euclid 3 pv a := euclid_congr3 hmp (fun _ _ => rfl)
  have h0 := euclid_nonneg 3 m a
  have hww : ip 3 w w = v ^ 2 := by
    rw [hv, ← hem, Real.sq_sqrt (by nlinarith)]; linarith
  have hv0 : 0 < v := by
    rw [hv, ← hem]; apply Real.sqrt_pos.2; nlinarith
  have hdiv := unit_orth_unique hw n1 n2 n3 (M := v⁻¹ • w) (by rw [ip_smul_left, ip_comm, ip_smul_left, hww]; field_simp) (by rw [ip_smul_left, hw1, mul_zero])
    (by rw [ip_smul_left, hw2, mul_zero])
  obtain ⟨u1, -⟩ := seedAt_spec pv v n r
  obtain ⟨l1, -⟩ := seedAt_spec pv (-v) n r
  rcases hdiv with hq | hq
  · left
    intro d hd3
    have e := hq d hd3
    simp only [Pi.smul_apply, smul_eq_mul] at e
    have e' : w d = v * ofV3 n d := by rw [← e]; field_simp
    rw [u1 d hd3, l1 d hd3, (hxy d hd3).1, (hxy d hd3).2, hmp d hd3, e']
    exact ⟨rfl, by ring⟩
  · right
    intro d hd3
    have e := hq d hd3
    simp only [Pi.smul_apply, smul_eq_mul] at e
    have e' : w d = -(v * ofV3 n d) := by
      have : v * (v⁻¹ * w d) = v * -ofV3 n d := by rw [e]
      rw [← mul_assoc, mul_inv_cancel₀ hv0.ne', one_mul] at this
      rw [this]; ring
    rw [u1 d hd3, l1 d hd3, (hxy d hd3).1, (hxy d hd3).2, hmp d hd3, e']
    exact ⟨by ring, by ring⟩

theorem PairStored.mono {Z : SphereSet} {us ls us' ls' : List (Nat → ℝ)} {i j k : Nat} (h : PairStored Z us ls i j k) (hu : us <+: us') (hl : ls <+: ls') :
    PairStored Z us' ls' i j k := by
  intro m w x y h1 h2 h3 h4 h5 h6 h7 h8
  obtain ⟨u, mu, l, ml, hh⟩ := h m w x y h1 h2 h3 h4 h5 h6 h7 h8
  exact ⟨u, hu.subset mu, l, hl.subset ml, hh⟩

theorem noteSliver_ne_nil (i : Nat) (r : ℝ) (l : List (Nat × ℝ)) : noteSliver i r l ≠ [] := by
  cases l with
  | nil => simp [noteSliver]
  | cons p ps => unfold noteSliver; split <;> simp

theorem noteSliver_mem {i : Nat} {r : ℝ} {l : List (Nat × ℝ)} {q : Nat × ℝ} (h : q ∈ noteSliver i r l) : q = (i, r) ∨ q ∈ l := by
  induction l with
  | nil => simp only [noteSliver, List.mem_singleton] at h; left; exact h
  | cons p ps ih =>
    unfold noteSliver at h
    split at h
    · rcases List.mem_cons.1 h with h | h
      · right; rw [h]; simp
      · rcases ih h with h | h
        · left; exact h
        · right; simp [h]
    · next hp =>
      push Not at hp
      rcases List.mem_cons.1 h with h | h
      · rw [h]
        split
        · left; rw [hp]
        · right; simp
      · right; simp [h]

end VoroCrust
