import Verif.Model.PowerVertex
import Verif.Props.Geometry
import Verif.Props.Sliver
import Mathlib.LinearAlgebra.Span.Basic
import Mathlib.LinearAlgebra.Matrix.NonsingularInverse

/-! # Power vertex of several spheres (C71) -/

namespace VoroCrust

/-- Inner product of the first `n` coordinates. -/
noncomputable def ip (n : Nat) (u v : Nat → ℝ) : ℝ := ∑ d ∈ Finset.range n, u d * v d

theorem ip_comm (n : Nat) (u v : Nat → ℝ) : ip n u v = ip n v u := by
  unfold ip; exact Finset.sum_congr rfl fun d _ => mul_comm _ _

theorem ip_add_left (n : Nat) (u u' v : Nat → ℝ) : ip n (u + u') v = ip n u v + ip n u' v := by
  unfold ip; rw [← Finset.sum_add_distrib]; exact Finset.sum_congr rfl fun d _ => by simp [add_mul]

theorem ip_sub_left (n : Nat) (u u' v : Nat → ℝ) : ip n (u - u') v = ip n u v - ip n u' v := by
  unfold ip; rw [← Finset.sum_sub_distrib]; exact Finset.sum_congr rfl fun d _ => by simp [sub_mul]

theorem ip_smul_left (n : Nat) (a : ℝ) (u v : Nat → ℝ) : ip n (a • u) v = a * ip n u v := by
  unfold ip; rw [Finset.mul_sum]; exact Finset.sum_congr rfl fun d _ => by simp [mul_assoc]

theorem ip_zero_left (n : Nat) (v : Nat → ℝ) : ip n 0 v = 0 := by
  unfold ip; exact Finset.sum_eq_zero fun d _ => by simp

theorem ip_self_nonneg (n : Nat) (u : Nat → ℝ) : 0 ≤ ip n u u := Finset.sum_nonneg fun d _ => mul_self_nonneg _

theorem ip_self_eq_zero {n : Nat} {u : Nat → ℝ} (h : ip n u u = 0) {d : Nat} (hd : d < n) : u d = 0 := by
  have := (Finset.sum_eq_zero_iff_of_nonneg (s := Finset.range n) (f := fun d => u d * u d) fun d _ => mul_self_nonneg _).1 h d (Finset.mem_range.2 hd)
  exact mul_self_eq_zero.1 this

theorem ip_span {n : Nat} {S : Set (Nat → ℝ)} {y v : Nat → ℝ} (h : ∀ u ∈ S, ip n u y = 0) (hv : v ∈ Submodule.span ℝ S) : ip n v y = 0 := by
  induction hv using Submodule.span_induction with
  | mem x hx => exact h x hx
  | zero => exact ip_zero_left n y
  | add x z _ _ hx hz => rw [ip_add_left, hx, hz, add_zero]
  | smul a x _ hx => rw [ip_smul_left, hx, mul_zero]

theorem ip_congr {n : Nat} {u u' v v' : Nat → ℝ} (h : ∀ d, d < n → u d = u' d) (h' : ∀ d, d < n → v d = v' d) : ip n u v = ip n u' v' :=
  Finset.sum_congr rfl fun d hd => by rw [h d (Finset.mem_range.1 hd), h' d (Finset.mem_range.1 hd)]

theorem ip_axis (n : Nat) (u : Nat → ℝ) {i : Nat} (hi : i < n) : ip n u (axis i) = u i := by
  unfold ip axis
  rw [Finset.sum_eq_single i]
  · simp
  · intro d _ hd; simp [hd]
  · intro h; exact absurd (Finset.mem_range.2 hi) h

/-- The first `k` vectors are orthonormal. -/
def OrthoN (n : Nat) (b : Nat → Nat → ℝ) (k : Nat) : Prop := ∀ i j, i < k → j < k → ip n (b i) (b j) = if i = j then 1 else 0

theorem OrthoN.list {n k : Nat} {b : Nat → Nat → ℝ} (h : OrthoN n b k) : Orthonormal' n ((List.range k).map b) := by
  refine ⟨?_, ?_⟩
  · intro v hv
    obtain ⟨i, hi, rfl⟩ := List.mem_map.1 hv
    have := h i i (List.mem_range.1 hi) (List.mem_range.1 hi)
    rwa [if_pos rfl] at this
  · rw [List.pairwise_map, List.pairwise_iff_getElem]
    intro i j hi hj hij
    rw [List.length_range] at hi hj
    simp only [List.getElem_range]
    have := h i j hi hj
    rwa [if_neg (by omega)] at this

theorem OrthoN.extend {n k : Nat} {b : Nat → Nat → ℝ} (h : OrthoN n b k) {w : Nat → ℝ} (h1 : ip n w w = 1) (h2 : ∀ i, i < k → ip n w (b i) = 0) :
    OrthoN n (upd b k w) (k + 1) := by
  intro i j hi hj
  unfold upd
  by_cases hik : i = k <;> by_cases hjk : j = k
  · subst hik; subst hjk; simpa using h1
  · rw [if_pos hik, if_neg hjk, h2 j (by omega), if_neg (by omega)]
  · rw [if_neg hik, if_pos hjk, ip_comm, h2 i (by omega), if_neg (by omega)]
  · rw [if_neg hik, if_neg hjk]; exact h i j (by omega) (by omega)

theorem OrthoN.congr {n k : Nat} {b b' : Nat → Nat → ℝ} (h : OrthoN n b k) (e : ∀ i, i < k → b' i = b i) : OrthoN n b' k := by
  intro i j hi hj; rw [e i hi, e j hj]; exact h i j hi hj

theorem axis_ortho (n : Nat) : OrthoN n axis n := by
  intro i j _ hj
  rw [ip_axis n _ hj]
  unfold axis
  by_cases h : i = j
  · simp [h]
  · rw [if_neg h, if_neg (Ne.symm h)]

/-! ## Orthogonal components -/

theorem subComps_mem (l : List ((Nat → ℝ) × ℝ)) (v : Nat → ℝ) : v - subComps l v ∈ Submodule.span ℝ {u | ∃ p ∈ l, u = p.1} := by
  induction l generalizing v with
  | nil => simp [subComps]
  | cons p l ih =>
    obtain ⟨b, c⟩ := p
    rw [subComps]
    have h1 := ih fun d => v d - c * b d
    have h2 : v - subComps l (fun d => v d - c * b d) = ((fun d => v d - c * b d) - subComps l fun d => v d - c * b d) + c • b := by
      funext d; simp only [Pi.sub_apply, Pi.add_apply, Pi.smul_apply, smul_eq_mul]; ring
    rw [h2]
    refine Submodule.add_mem _ (Submodule.span_mono ?_ h1) (Submodule.smul_mem _ _ (Submodule.subset_span ⟨(b, c), by simp, rfl⟩))
    rintro u ⟨p, hp, rfl⟩
    exact ⟨p, by simp [hp], rfl⟩

/-- The vector of which the code takes the length. -/
noncomputable def residue (n : Nat) (bs : List (Nat → ℝ)) (v : Nat → ℝ) : Nat → ℝ := subComps (bs.map fun b => (b, dotDim v b n)) v

theorem residue_span (n : Nat) (bs : List (Nat → ℝ)) (v : Nat → ℝ) : v - residue n bs v ∈ Submodule.span ℝ {u | u ∈ bs} := by
  refine Submodule.span_mono ?_ (subComps_mem (bs.map fun b => (b, dotDim v b n)) v)
  rintro u ⟨p, hp, rfl⟩
  obtain ⟨b, hb, rfl⟩ := List.mem_map.1 hp
  exact hb

theorem normalComponent_ok {n : Nat} {bs : List (Nat → ℝ)} {v : Nat → ℝ} (h : 1e-10 ≤ ip n (residue n bs v) (residue n bs v)) :
    normalComponent n bs v = ((1 / Real.sqrt (ip n (residue n bs v) (residue n bs v))) • residue n bs v, 1 / Real.sqrt (ip n (residue n bs v) (residue n bs v)), true) := by
  unfold normalComponent
  simp only [dotDim_eq]
  have h' : ¬ |∑ d ∈ Finset.range n, subComps (bs.map fun b => (b, ∑ d ∈ Finset.range n, v d * b d)) v d * subComps (bs.map fun b => (b, ∑ d ∈ Finset.range n, v d * b d)) v d| < 1e-10 := by
    have e : residue n bs v = subComps (bs.map fun b => (b, ∑ d ∈ Finset.range n, v d * b d)) v := by
      unfold residue; simp only [dotDim_eq]
    rw [e] at h
    rw [not_lt]; exact le_trans h (le_abs_self _)
  rw [if_neg h']
  unfold residue ip
  simp only [dotDim_eq]
  refine Prod.ext ?_ rfl
  funext d
  simp [mul_comm]

/-- What success gives. -/
theorem normalComponent_unit {n k : Nat} {b : Nat → Nat → ℝ} (hb : OrthoN n b k) {v : Nat → ℝ} (hok : (normalComponent n ((List.range k).map b) v).2.2 = true) :
    ip n (normalComponent n ((List.range k).map b) v).1 (normalComponent n ((List.range k).map b) v).1 = 1 ∧
      ∀ i, i < k → ip n (normalComponent n ((List.range k).map b) v).1 (b i) = 0 := by
  obtain ⟨h1, -⟩ := C44_normal_component n _ hb.list v _ _ _ rfl
  obtain ⟨a1, a2, -⟩ := h1 hok
  exact ⟨a1, fun i hi => a2 (b i) (List.mem_map.2 ⟨i, List.mem_range.2 hi, rfl⟩)⟩

theorem normalComponent_norm {n : Nat} {bs : List (Nat → ℝ)} {v : Nat → ℝ} (h : (normalComponent n bs v).2.1 > 0.1) : (normalComponent n bs v).2.2 = true := by
  unfold normalComponent at h ⊢
  simp only at h ⊢
  split at h
  · next h' =>
    simp only at h
    have := (abs_lt.1 h').2
    norm_num at h this; linarith
  · next h' => rw [if_neg h']

theorem list_sum_range (f : Nat → ℝ) (k : Nat) : ((List.range k).map f).sum = ∑ l ∈ Finset.range k, f l := by
  induction k with
  | zero => rfl
  | succ k ih => rw [List.range_succ, List.map_append, List.sum_append, ih, Finset.sum_range_succ]; simp

/-- Squared length of the residue of an axis. -/
theorem residue_axis {n k : Nat} {b : Nat → Nat → ℝ} (hb : OrthoN n b k) {i : Nat} (hi : i < n) :
    ip n (residue n ((List.range k).map b) (axis i)) (residue n ((List.range k).map b) (axis i)) = 1 - ∑ l ∈ Finset.range k, b l i * b l i := by
  set w := residue n ((List.range k).map b) (axis i) with hw
  have horth : ∀ u ∈ (List.range k).map b, ip n u w = 0 := fun u hu => by
    rw [ip_comm]; exact subComps_orthogonal n _ hb.list (axis i) u hu
  have h1 : ip n w w = ip n (axis i) w := by
    have := ip_span (n := n) (y := w) (S := {u | u ∈ (List.range k).map b}) horth (residue_span n ((List.range k).map b) (axis i))
    rw [ip_sub_left] at this
    linarith
  rw [h1, ip_comm]
  have h2 := subComps_dot n (((List.range k).map b).map fun u => (u, dotDim (axis i) u n)) (axis i) (axis i)
  have h3 : ip n w (axis i) = ip n (axis i) (axis i) - ((((List.range k).map b).map fun u => (u, dotDim (axis i) u n)).map fun p => p.2 * ∑ d ∈ Finset.range n, p.1 d * axis i d).sum := h2
  rw [h3, ip_axis n _ hi, List.map_map, List.map_map]
  have h4 : (((fun p : (Nat → ℝ) × ℝ => p.2 * ∑ d ∈ Finset.range n, p.1 d * axis i d) ∘ (fun u => (u, dotDim (axis i) u n))) ∘ b) = fun l => b l i * b l i := by
    funext l
    simp only [Function.comp, dotDim_eq]
    have e1 : ∑ d ∈ Finset.range n, axis i d * b l d = b l i := by
      rw [← ip_axis n (b l) hi, ip_comm]; rfl
    have e2 : ∑ d ∈ Finset.range n, b l d * axis i d = b l i := ip_axis n (b l) hi
    rw [e1, e2]
  rw [h4]
  rw [list_sum_range]; simp [axis]

/-! ## The basis -/

theorem sum_residue_axis {n k : Nat} {b : Nat → Nat → ℝ} (hb : OrthoN n b k) :
    ∑ i ∈ Finset.range n, ip n (residue n ((List.range k).map b) (axis i)) (residue n ((List.range k).map b) (axis i)) = (n : ℝ) - k := by
  rw [Finset.sum_congr rfl fun i hi => residue_axis hb (Finset.mem_range.1 hi), Finset.sum_sub_distrib, Finset.sum_comm]
  have : ∀ l ∈ Finset.range k, ∑ i ∈ Finset.range n, b l i * b l i = 1 := fun l hl => by
    have := hb l l (Finset.mem_range.1 hl) (Finset.mem_range.1 hl)
    rwa [if_pos rfl] at this
  rw [Finset.sum_congr rfl this]
  simp

theorem exists_axis {n k : Nat} (hn : (n : ℝ) ≤ 1e10) {b : Nat → Nat → ℝ} (hb : OrthoN n b k) (hk : k < n) :
    ∃ i, i < n ∧ 1e-10 ≤ ip n (residue n ((List.range k).map b) (axis i)) (residue n ((List.range k).map b) (axis i)) := by
  by_contra hcon
  push Not at hcon
  have h1 := sum_residue_axis hb
  have h2 : ∑ i ∈ Finset.range n, ip n (residue n ((List.range k).map b) (axis i)) (residue n ((List.range k).map b) (axis i)) < ∑ i ∈ Finset.range n, (1e-10 : ℝ) :=
    Finset.sum_lt_sum_of_nonempty ⟨0, Finset.mem_range.2 (by omega)⟩ fun i hi => hcon i (Finset.mem_range.1 hi)
  rw [h1, Finset.sum_const, Finset.card_range, nsmul_eq_mul] at h2
  have h3 : (k : ℝ) + 1 ≤ n := by exact_mod_cast hk
  have h4 : (n : ℝ) * 1e-10 ≤ 1 := by
    have := mul_le_mul_of_nonneg_right hn (by norm_num : (0 : ℝ) ≤ 1e-10)
    norm_num at this ⊢; linarith
  linarith

theorem residue_axis_le {n k : Nat} {b : Nat → Nat → ℝ} (hb : OrthoN n b k) {i : Nat} (hi : i < n) :
    ip n (residue n ((List.range k).map b) (axis i)) (residue n ((List.range k).map b) (axis i)) ≤ 1 := by
  rw [residue_axis hb hi]
  have : 0 ≤ ∑ l ∈ Finset.range k, b l i * b l i := Finset.sum_nonneg fun l _ => mul_self_nonneg _
  linarith

theorem pickBasis_spec {n k : Nat} {b : Nat → Nat → ℝ} (hb : OrthoN n b k) (is : List Nat) (his : ∀ i ∈ is, i < n) (v : Nat → ℝ)
    (hex : ∃ i ∈ is, 1e-10 ≤ ip n (residue n ((List.range k).map b) (axis i)) (residue n ((List.range k).map b) (axis i))) :
    ip n (pickBasis n ((List.range k).map b) is v) (pickBasis n ((List.range k).map b) is v) = 1 ∧
      ∀ i, i < k → ip n (pickBasis n ((List.range k).map b) is v) (b i) = 0 := by
  induction is generalizing v with
  | nil => obtain ⟨i, hi, -⟩ := hex; simp at hi
  | cons i is ih =>
    rw [pickBasis]
    split
    · next h => exact normalComponent_unit hb (normalComponent_norm h)
    · next h =>
      refine ih (fun j hj => his j (by simp [hj])) _ ?_
      obtain ⟨j, hj, hj'⟩ := hex
      rcases List.mem_cons.1 hj with rfl | hj
      · exfalso
        apply h
        rw [normalComponent_ok hj']
        have hle := residue_axis_le hb (his j (by simp))
        have hs : Real.sqrt (ip n (residue n ((List.range k).map b) (axis j)) (residue n ((List.range k).map b) (axis j))) ≤ 1 := by
          rw [← Real.sqrt_one]; exact Real.sqrt_le_sqrt hle
        have hp : 0 < Real.sqrt (ip n (residue n ((List.range k).map b) (axis j)) (residue n ((List.range k).map b) (axis j))) :=
          Real.sqrt_pos.2 (lt_of_lt_of_le (by norm_num) hj')
        have : 1 ≤ 1 / Real.sqrt (ip n (residue n ((List.range k).map b) (axis j)) (residue n ((List.range k).map b) (axis j))) := by
          rw [le_div_iff₀ hp]; linarith
        show _ > _
        norm_num at this ⊢
        linarith
      · exact ⟨j, hj, hj'⟩

theorem fillBasis_spec {n : Nat} (hn : (n : ℝ) ≤ 1e10) (v : Nat → ℝ) (l a : Nat) (hal : a + l ≤ n) (b : Nat → Nat → ℝ) (hb : OrthoN n b a) :
    OrthoN n (fillBasis n v (List.range' a l) b) (a + l) ∧ ∀ i, i < a → fillBasis n v (List.range' a l) b i = b i := by
  induction l generalizing a b with
  | zero => exact ⟨hb, fun _ _ => rfl⟩
  | succ l ih =>
    rw [List.range'_succ, fillBasis]
    obtain ⟨i, hi, hi'⟩ := exists_axis hn hb (by omega)
    obtain ⟨h1, h2⟩ := pickBasis_spec hb (List.range n) (fun i hi => List.mem_range.1 hi) v ⟨i, List.mem_range.2 hi, hi'⟩
    obtain ⟨h3, h4⟩ := ih (a + 1) (by omega) _ (hb.extend h1 h2)
    refine ⟨by rw [show a + (l + 1) = a + 1 + l by omega]; exact h3, fun i hi => ?_⟩
    rw [h4 i (by omega)]; simp [upd, show i ≠ a by omega]

/-- An orthonormal family of full size spans: coordinates. -/
theorem OrthoN.expand {n : Nat} {b : Nat → Nat → ℝ} (h : OrthoN n b n) (u : Nat → ℝ) {d : Nat} (hd : d < n) : u d = ∑ j ∈ Finset.range n, ip n u (b j) * b j d := by
  let B : Matrix (Fin n) (Fin n) ℝ := fun i j => b i j
  have h1 : B * B.transpose = 1 := by
    ext i j
    rw [Matrix.mul_apply]
    have := h i j i.2 j.2
    unfold ip at this
    rw [Finset.sum_range fun d => b i d * b j d] at this
    simp only [Matrix.transpose_apply]
    rw [show (∑ k : Fin n, B i k * B j k) = ∑ k : Fin n, b i k * b j k from rfl, this, Matrix.one_apply]
    simp [Fin.ext_iff]
  have h2 : B.transpose * B = 1 := mul_eq_one_comm.1 h1
  have h3 : ∀ e f : Fin n, ∑ j : Fin n, b j e * b j f = if e = f then 1 else 0 := fun e f => by
    have := congrFun (congrFun h2 e) f
    rw [Matrix.mul_apply, Matrix.one_apply] at this
    exact this
  rw [Finset.sum_range fun j => ip n u (b j) * b j d]
  have h4 : ∀ j : Fin n, ip n u (b j) * b j d = ∑ e : Fin n, u e * (b j e * b j d) := fun j => by
    unfold ip
    rw [Finset.sum_range fun d => u d * b j d, Finset.sum_mul]
    exact Finset.sum_congr rfl fun e _ => by ring
  rw [Finset.sum_congr rfl fun j _ => h4 j, Finset.sum_comm]
  have h5 : ∀ e : Fin n, ∑ j : Fin n, u e * (b j e * b j d) = if e = ⟨d, hd⟩ then u e else 0 := fun e => by
    rw [← Finset.mul_sum]
    have := h3 e ⟨d, hd⟩
    simp only at this
    rw [this]; split <;> simp
  rw [Finset.sum_congr rfl fun e _ => h5 e]
  simp

/-! ## The spokes -/

/-- Vectors from the first centre to the centres `1, ..., k`. -/
def arms (c : Nat → Nat → ℝ) (k : Nat) : Set (Nat → ℝ) := {u | ∃ i, 1 ≤ i ∧ i ≤ k ∧ u = c i - c 0}

/-- Every centre but the first keeps the distance `1e-5` from the plane through the others: in any combination of the other arms the arm of `i` is missed by `1e-5`. -/
def Spread (n m : Nat) (c : Nat → Nat → ℝ) : Prop :=
  ∀ i, 1 ≤ i → i < m → ∀ v ∈ Submodule.span ℝ {u | ∃ j, 1 ≤ j ∧ j < m ∧ j ≠ i ∧ u = c j - c 0}, 1e-10 ≤ ip n (c i - c 0 - v) (c i - c 0 - v)

/-- `x` has the same power to sphere `i` as to sphere 0. -/
def OnRadical (n : Nat) (c : Nat → Nat → ℝ) (r : Nat → ℝ) (i : Nat) (x : Nat → ℝ) : Prop :=
  ip n (x - c 0) (c i - c 0) = (ip n (c i - c 0) (c i - c 0) + r 0 ^ 2 - r i ^ 2) / 2

theorem euclid_ip (n : Nat) (x y : Nat → ℝ) : euclid n x y ^ 2 = ip n (y - x) (y - x) := by
  rw [euclid_sq]; unfold ip; exact Finset.sum_congr rfl fun d _ => by simp only [Pi.sub_apply]; ring

theorem onRadical_iff {n : Nat} {c : Nat → Nat → ℝ} {r : Nat → ℝ} {i : Nat} {x : Nat → ℝ} :
    OnRadical n c r i x ↔ power n x (c 0) (r 0) = power n x (c i) (r i) := by
  unfold OnRadical power
  have h1 : euclid n x (c i) ^ 2 = euclid n x (c 0) ^ 2 - 2 * ip n (x - c 0) (c i - c 0) + ip n (c i - c 0) (c i - c 0) := by
    rw [euclid_sq, euclid_sq]; unfold ip
    rw [Finset.mul_sum, ← Finset.sum_sub_distrib, ← Finset.sum_add_distrib]
    exact Finset.sum_congr rfl fun d _ => by simp only [Pi.sub_apply]; ring
  rw [h1]
  constructor <;> intro h <;> linarith

theorem pvDot2_eq (n : Nat) (s : PvState) (dir : Nat → ℝ) (i : Nat) : pvDot2 n s dir i = ip n dir (s.c i - s.c 0) := by
  unfold pvDot2; rw [dotDim_eq]; rfl

theorem pvDot1_eq {n : Nat} {s : PvState} {i : Nat} (h : ip n (s.c i - s.c 0) (s.c i - s.c 0) ≠ 0) :
    pvDot1 n s i = (ip n (s.c i - s.c 0) (s.c i - s.c 0) + s.r 0 ^ 2 - s.r i ^ 2) / 2 - ip n (s.x - s.c 0) (s.c i - s.c 0) := by
  unfold pvDot1
  simp only [dotDim_eq, distance_eq]
  set M := s.c i - s.c 0 with hM
  set h0 := euclid n (s.c 0) (s.c i) with hh0
  have hsq : h0 ^ 2 = ip n M M := euclid_ip n _ _
  have hne : h0 ≠ 0 := fun h' => by rw [h'] at hsq; apply h; rw [← hsq]; norm_num
  have e : (∑ d ∈ Finset.range n, (powerVertexAt (s.c 0) (s.r 0) (s.c i) (s.r i) h0 d - s.x d) * (s.c i d - s.c 0 d)) =
      ip n (((h0 * h0 + s.r 0 * s.r 0 - s.r i * s.r i) / (2 * h0) / h0) • M - (s.x - s.c 0)) M := by
    unfold ip powerVertexAt
    refine Finset.sum_congr rfl fun d _ => ?_
    simp only [hM, Pi.sub_apply, Pi.smul_apply, smul_eq_mul]
    ring
  rw [e, ip_sub_left, ip_smul_left, ← hsq]
  congr 1
  field_simp

theorem spokeDir_span (dart : Nat → ℝ) (b : Nat → Nat → ℝ) (k l : Nat) : spokeDir dart b k l ∈ Submodule.span ℝ {u | ∃ j, k ≤ j ∧ j < k + l ∧ u = b j} := by
  induction l with
  | zero => exact Submodule.zero_mem _
  | succ l ih =>
    have e : spokeDir dart b k (l + 1) = spokeDir dart b k l + dart l • b (k + l) := by
      funext d; simp [spokeDir]
    rw [e]
    refine Submodule.add_mem _ (Submodule.span_mono ?_ ih) (Submodule.smul_mem _ _ (Submodule.subset_span ⟨k + l, by omega, by omega, rfl⟩))
    rintro u ⟨j, h1, h2, rfl⟩
    exact ⟨j, h1, by omega, rfl⟩

theorem pvTrim_spec {n : Nat} {s : PvState} {dir : Nat → ℝ} (is : List Nat) (a : Option ℝ × Nat) (Good : Nat → ℝ → Prop)
    (hg : ∀ i ∈ is, 1e-10 ≤ |pvDot2 n s dir i| → Good i (pvDot1 n s i / pvDot2 n s dir i)) (ha : a = (none, 0) ∨ ∃ α, a.1 = some α ∧ Good a.2 α) :
    pvTrim n s dir is a = (none, 0) ∨ ∃ α, (pvTrim n s dir is a).1 = some α ∧ Good (pvTrim n s dir is a).2 α := by
  induction is generalizing a with
  | nil => exact ha
  | cons i is ih =>
    rw [pvTrim]
    have hg' : ∀ j ∈ is, 1e-10 ≤ |pvDot2 n s dir j| → Good j (pvDot1 n s j / pvDot2 n s dir j) := fun j hj => hg j (by simp [hj])
    by_cases h : |pvDot2 n s dir i| < 1e-10
    · rw [if_pos h]; exact ih a hg' ha
    · rw [if_neg h]
      have hi := hg i (by simp) (not_lt.1 h)
      simp only
      split
      · exact ih _ hg' (Or.inr ⟨_, rfl, hi⟩)
      · split
        · exact ih _ hg' (Or.inr ⟨_, rfl, hi⟩)
        · exact ih a hg' ha

/-- State before spoke `k`. -/
structure PvInv (n m k : Nat) (s : PvState) : Prop where
  ortho : OrthoN n s.b n
  inArms : ∀ j, j < k → s.b j ∈ Submodule.span ℝ (arms s.c k)
  armsIn : ∀ i, 1 ≤ i → i ≤ k → s.c i - s.c 0 ∈ Submodule.span ℝ {u | ∃ j, j < k ∧ u = s.b j}
  plane : ∀ i, 1 ≤ i → i ≤ k → OnRadical n s.c s.r i s.x

theorem PvInv.arm_orth {n m k : Nat} {s : PvState} (h : PvInv n m k s) {i j : Nat} (hi : 1 ≤ i) (hik : i ≤ k) (hkj : k ≤ j) (hj : j < n) (_hkn : k ≤ n) :
    ip n (s.c i - s.c 0) (s.b j) = 0 := by
  refine ip_span ?_ (h.armsIn i hi hik)
  rintro u ⟨l, hl, rfl⟩
  rw [h.ortho l j (by omega) hj, if_neg (by omega)]

/-- The same spheres in another order, the first kept. -/
structure Shuffled (m : Nat) (c : Nat → Nat → ℝ) (r : Nat → ℝ) (c' : Nat → Nat → ℝ) (r' : Nat → ℝ) : Prop where
  zero : c' 0 = c 0 ∧ r' 0 = r 0
  fwd : ∀ i, 1 ≤ i → i < m → ∃ j, 1 ≤ j ∧ j < m ∧ c j = c' i ∧ r j = r' i
  bwd : ∀ i, 1 ≤ i → i < m → ∃ j, 1 ≤ j ∧ j < m ∧ c' j = c i ∧ r' j = r i

theorem Shuffled.trans {m : Nat} {c c' c'' : Nat → Nat → ℝ} {r r' r'' : Nat → ℝ} (h : Shuffled m c r c' r') (h' : Shuffled m c' r' c'' r'') : Shuffled m c r c'' r'' := by
  refine ⟨⟨h'.zero.1.trans h.zero.1, h'.zero.2.trans h.zero.2⟩, fun i h1 h2 => ?_, fun i h1 h2 => ?_⟩
  · obtain ⟨j, j1, j2, j3, j4⟩ := h'.fwd i h1 h2
    obtain ⟨l, l1, l2, l3, l4⟩ := h.fwd j j1 j2
    exact ⟨l, l1, l2, l3.trans j3, l4.trans j4⟩
  · obtain ⟨j, j1, j2, j3, j4⟩ := h.bwd i h1 h2
    obtain ⟨l, l1, l2, l3, l4⟩ := h'.bwd j j1 j2
    exact ⟨l, l1, l2, l3.trans j3, l4.trans j4⟩

theorem swap_self_apply {α : Type} (x : Nat → α) (i j k : Nat) : swapAt x i j k = x (if k = j then i else if k = i then j else k) := by
  unfold swapAt; split_ifs <;> rfl

theorem shuffled_swap {m : Nat} (c : Nat → Nat → ℝ) (r : Nat → ℝ) {i j : Nat} (hi : 1 ≤ i) (him : i < m) (hj : 1 ≤ j) (hjm : j < m) :
    Shuffled m c r (swapAt c i j) (swapAt r i j) := by
  refine ⟨⟨by simp [swap_self_apply, show 0 ≠ j by omega, show 0 ≠ i by omega], by simp [swap_self_apply, show 0 ≠ j by omega, show 0 ≠ i by omega]⟩, ?_, ?_⟩
  · intro k h1 h2
    refine ⟨if k = j then i else if k = i then j else k, by split_ifs <;> omega, by split_ifs <;> omega, ?_, ?_⟩ <;> rw [swap_self_apply]
  · intro k h1 h2
    refine ⟨if k = j then i else if k = i then j else k, by split_ifs <;> omega, by split_ifs <;> omega, ?_, ?_⟩
    · rw [swap_self_apply]; split_ifs <;> first | rfl | (congr 1; omega)
    · rw [swap_self_apply]; split_ifs <;> first | rfl | (congr 1; omega)

theorem Spread.swap {n m : Nat} {c : Nat → Nat → ℝ} (h : Spread n m c) {i j : Nat} (hi : 1 ≤ i) (him : i < m) (hj : 1 ≤ j) (hjm : j < m) : Spread n m (swapAt c i j) := by
  intro k h1 h2 v hv
  have h0 : swapAt c i j 0 = c 0 := by simp [swap_self_apply, show 0 ≠ j by omega, show 0 ≠ i by omega]
  rw [h0, swap_self_apply]
  rw [h0] at hv
  refine h _ (by split_ifs <;> omega) (by split_ifs <;> omega) v (Submodule.span_mono ?_ hv)
  rintro u ⟨l, l1, l2, l3, rfl⟩
  refine ⟨if l = j then i else if l = i then j else l, by split_ifs <;> omega, by split_ifs <;> omega, by split_ifs <;> omega, by rw [swap_self_apply]⟩

theorem pvSpoke_spec {n m k : Nat} (hn : (n : ℝ) ≤ 1e10) (hm : m ≤ n + 1) (hk : k + 1 < m) {s : PvState} (h : PvInv n m k s) (hsp : Spread n m s.c) (dart : Nat → ℝ)
    {s' : PvState} (e : pvSpoke n m dart k s = some s') : PvInv n m (k + 1) s' ∧ Spread n m s'.c ∧ Shuffled m s.c s.r s'.c s'.r := by
  unfold pvSpoke at e
  simp only at e
  set dir := spokeDir dart s.b k (n - k) with hdir
  have horth : ∀ i, 1 ≤ i → i ≤ k → ip n dir (s.c i - s.c 0) = 0 := by
    intro i h1 h2
    refine ip_span ?_ (spokeDir_span dart s.b k (n - k))
    rintro u ⟨j, j1, j2, rfl⟩
    rw [ip_comm]; exact h.arm_orth h1 h2 j1 (by omega) (by omega)
  have hgood := pvTrim_spec (n := n) (s := s) (dir := dir) (List.range' (k + 1) (m - (k + 1))) (none, 0)
    (fun p α => k + 1 ≤ p ∧ p < m ∧ OnRadical n s.c s.r p (s.x + α • dir)) (by
      intro i hi h2
      rw [List.mem_range'_1] at hi
      refine ⟨hi.1, by omega, ?_⟩
      rw [pvDot2_eq] at h2 ⊢
      have hd2 : ip n dir (s.c i - s.c 0) ≠ 0 := fun h0 => by rw [h0] at h2; norm_num at h2
      have hMM : ip n (s.c i - s.c 0) (s.c i - s.c 0) ≠ 0 := fun h0 => by
        apply hd2
        unfold ip
        refine Finset.sum_eq_zero fun d hd => ?_
        rw [ip_self_eq_zero h0 (Finset.mem_range.1 hd), mul_zero]
      rw [pvDot1_eq hMM]
      unfold OnRadical
      rw [show s.x + (((ip n (s.c i - s.c 0) (s.c i - s.c 0) + s.r 0 ^ 2 - s.r i ^ 2) / 2 - ip n (s.x - s.c 0) (s.c i - s.c 0)) / ip n dir (s.c i - s.c 0)) • dir - s.c 0 =
        (s.x - s.c 0) + (((ip n (s.c i - s.c 0) (s.c i - s.c 0) + s.r 0 ^ 2 - s.r i ^ 2) / 2 - ip n (s.x - s.c 0) (s.c i - s.c 0)) / ip n dir (s.c i - s.c 0)) • dir by
        rw [add_sub_right_comm], ip_add_left, ip_smul_left]
      field_simp
      ring) (Or.inl rfl)
  split at e
  · next α p ht =>
    rw [ht] at hgood
    rcases hgood with hg | ⟨α', hα, hp1, hp2, hrad⟩
    · simp at hg
    · simp only [Option.some.injEq] at hα
      subst hα
      simp only at hp1 hp2 hrad
      simp only [Option.some.injEq] at e
      subst e
      have hsh := shuffled_swap (m := m) s.c s.r (i := p + 1) (j := k + 1) (by omega) hp2 (by omega) hk
      have hsp' := hsp.swap (i := p + 1) (j := k + 1) (by omega) hp2 (by omega) hk
      have hc0 : swapAt s.c (p + 1) (k + 1) 0 = s.c 0 := hsh.zero.1
      have hr0 : swapAt s.r (p + 1) (k + 1) 0 = s.r 0 := hsh.zero.2
      have hck : swapAt s.c (p + 1) (k + 1) (k + 1) = s.c (p + 1) := by simp [swap_self_apply]
      have hrk : swapAt s.r (p + 1) (k + 1) (k + 1) = s.r (p + 1) := by simp [swap_self_apply]
      have hlow : ∀ i, i ≤ k → swapAt s.c (p + 1) (k + 1) i = s.c i ∧ swapAt s.r (p + 1) (k + 1) i = s.r i := fun i hi => by
        simp [swap_self_apply, show i ≠ k + 1 by omega, show i ≠ p + 1 by omega]
      set c' := swapAt s.c (p + 1) (k + 1) with hc'
      set r' := swapAt s.r (p + 1) (k + 1) with hr'
      set v : Nat → ℝ := c' (k + 1) - c' 0 with hv
      have hvfun : (fun d => c' (k + 1) d - c' 0 d) = v := rfl
      simp only [hvfun]
      have hok : OrthoN n s.b k := fun i j hi hj => h.ortho i j (by omega) (by omega)
      set res := residue n ((List.range k).map s.b) v with hres
      have hspan1 : v - res ∈ Submodule.span ℝ {u | ∃ j, j < k ∧ u = s.b j} := by
        refine Submodule.span_mono ?_ (residue_span n ((List.range k).map s.b) v)
        intro u hu
        obtain ⟨j, hj, rfl⟩ := List.mem_map.1 hu
        exact ⟨j, List.mem_range.1 hj, rfl⟩
      have hsubk : Submodule.span ℝ {u | ∃ j, j < k ∧ u = s.b j} ≤ Submodule.span ℝ (arms s.c k) := by
        rw [Submodule.span_le]
        rintro u ⟨j, hj, rfl⟩
        exact h.inArms j hj
      have harms : arms s.c k ⊆ arms c' (k + 1) := by
        rintro u ⟨i, h1, h2, rfl⟩
        exact ⟨i, h1, by omega, by rw [(hlow i h2).1, hc0]⟩
      have hbig : 1e-10 ≤ ip n res res := by
        have hmem : v - res ∈ Submodule.span ℝ {u | ∃ j, 1 ≤ j ∧ j < m ∧ j ≠ k + 1 ∧ u = c' j - c' 0} := by
          refine Submodule.span_mono ?_ (hsubk hspan1)
          rintro u ⟨i, h1, h2, rfl⟩
          exact ⟨i, h1, by omega, by omega, by rw [(hlow i h2).1, hc0]⟩
        have := hsp' (k + 1) (by omega) hk _ hmem
        rw [show c' (k + 1) - c' 0 - (v - res) = res by rw [hv]; abel] at this
        exact this
      have hnc := normalComponent_ok hbig
      have hunit := normalComponent_unit hok (v := v) (by rw [hnc])
      set w := (normalComponent n ((List.range k).map s.b) v).1 with hw
      have hwres : w = (1 / Real.sqrt (ip n res res)) • res := by rw [hw, hnc]
      have hsq : Real.sqrt (ip n res res) ≠ 0 := (Real.sqrt_pos.2 (lt_of_lt_of_le (by norm_num) hbig)).ne'
      have hresw : res = Real.sqrt (ip n res res) • w := by
        rw [hwres, smul_smul, mul_one_div_cancel hsq, one_smul]
      obtain ⟨hf1, hf2⟩ := fillBasis_spec hn w (n - (k + 1)) (k + 1) (by omega) (upd s.b k w) (hok.extend hunit.1 hunit.2)
      rw [show k + 1 + (n - (k + 1)) = n by omega] at hf1
      set b' := fillBasis n w (List.range' (k + 1) (n - (k + 1))) (upd s.b k w) with hb'
      have hblow : ∀ j, j < k → b' j = s.b j := fun j hj => by rw [hf2 j (by omega)]; simp [upd, show j ≠ k by omega]
      have hbk : b' k = w := by rw [hf2 k (by omega)]; simp [upd]
      have hold : Submodule.span ℝ {u | ∃ j, j < k ∧ u = s.b j} ≤ Submodule.span ℝ {u | ∃ j, j < k + 1 ∧ u = b' j} := by
        apply Submodule.span_mono
        rintro u ⟨j, hj, rfl⟩
        exact ⟨j, by omega, (hblow j hj).symm⟩
      refine ⟨⟨hf1, ?_, ?_, ?_⟩, hsp', hsh⟩
      · intro j hj
        rcases Nat.lt_or_eq_of_le (Nat.le_of_lt_succ hj) with hj | rfl
        · show b' j ∈ _
          rw [hblow j hj]
          exact Submodule.span_mono harms (h.inArms j hj)
        · show b' j ∈ _
          rw [hbk, hwres]
          refine Submodule.smul_mem _ _ ?_
          have h1 : v ∈ Submodule.span ℝ (arms c' (j + 1)) := Submodule.subset_span ⟨j + 1, by omega, le_refl _, rfl⟩
          have h2 := Submodule.span_mono harms (hsubk hspan1)
          have := Submodule.sub_mem _ h1 h2
          rwa [sub_sub_cancel] at this
      · intro i h1 h2
        show c' i - c' 0 ∈ Submodule.span ℝ {u | ∃ j, j < k + 1 ∧ u = b' j}
        rcases Nat.lt_or_eq_of_le h2 with h2 | rfl
        · rw [(hlow i (by omega)).1, hc0]
          exact hold (h.armsIn i h1 (by omega))
        · have e1 : c' (k + 1) - c' 0 = (v - res) + res := by rw [hv]; abel
          rw [e1, hresw]
          refine Submodule.add_mem _ ?_ (Submodule.smul_mem _ _ (Submodule.subset_span ⟨k, by omega, hbk.symm⟩))
          rw [← hresw]; exact hold hspan1
      · intro i h1 h2
        show OnRadical n c' r' i (s.x + α • dir)
        rcases Nat.lt_or_eq_of_le h2 with h2 | rfl
        · have hi := h.plane i h1 (by omega)
          unfold OnRadical at hi ⊢
          rw [(hlow i (by omega)).1, (hlow i (by omega)).2, hc0, hr0, ← hi, add_sub_right_comm, ip_add_left, ip_smul_left, horth i h1 (by omega)]
          ring
        · unfold OnRadical at hrad ⊢
          rw [hck, hrk, hc0, hr0]; exact hrad
  · simp at e

theorem pvSpokes_spec {n m : Nat} (hn : (n : ℝ) ≤ 1e10) (hm : m ≤ n + 1) (dart : Nat → Nat → ℝ) (l k : Nat) (hlk : k + l + 1 = m) {s : PvState} (h : PvInv n m k s)
    (hsp : Spread n m s.c) {s' : PvState} (e : pvSpokes n m dart l k s = some s') : PvInv n m (m - 1) s' ∧ (s'.c = s.c ∧ s'.r = s.r ∨ Shuffled m s.c s.r s'.c s'.r) := by
  induction l generalizing k s with
  | zero =>
    simp only [pvSpokes, Option.some.injEq] at e
    subst e
    rw [show m - 1 = k by omega]; exact ⟨h, Or.inl ⟨rfl, rfl⟩⟩
  | succ l ih =>
    rw [pvSpokes] at e
    cases e1 : pvSpoke n m (dart k) k s with
    | none => rw [e1] at e; simp at e
    | some s1 =>
      rw [e1] at e
      obtain ⟨h1, h2, h3⟩ := pvSpoke_spec hn hm (by omega) h hsp (dart k) e1
      obtain ⟨h4, h5⟩ := ih (k + 1) (by omega) h1 h2 e
      refine ⟨h4, Or.inr ?_⟩
      rcases h5 with ⟨h5, h6⟩ | h5
      · rw [h5, h6]; exact h3
      · exact h3.trans h5

theorem pvProject_spec {n : Nat} {b : Nat → Nat → ℝ} (hb : OrthoN n b n) (l a : Nat) (hal : a + l = n) (v : Nat → ℝ) :
    (∀ y, (∀ j, a ≤ j → j < n → ip n (b j) y = 0) → ip n (pvProject n b (List.range' a l) v) y = ip n v y) ∧
    ∀ j, a ≤ j → j < n → ip n (pvProject n b (List.range' a l) v) (b j) = 0 := by
  induction l generalizing a v with
  | zero => exact ⟨fun y _ => rfl, fun j h1 h2 => by omega⟩
  | succ l ih =>
    rw [List.range'_succ, pvProject]
    have hfun : (fun d => v d - dotDim v (b a) n * b a d) = v - ip n v (b a) • b a := by
      funext d; simp [dotDim_eq, ip]
    rw [hfun]
    obtain ⟨h1, h2⟩ := ih (a + 1) (by omega) (v - ip n v (b a) • b a)
    refine ⟨fun y hy => ?_, fun j hj hjn => ?_⟩
    · rw [h1 y fun j hj hjn => hy j (by omega) hjn, ip_sub_left, ip_smul_left, hy a (le_refl _) (by omega)]; ring
    · rcases Nat.lt_or_eq_of_le hj with hj | rfl
      · exact h2 j hj hjn
      · rw [h1 (b a) fun j hj hjn => by rw [hb j a hjn (by omega), if_neg (by omega)], ip_sub_left, ip_smul_left, hb a a (by omega) (by omega), if_pos rfl]; ring

/-- **C71, power vertex of several spheres.** In every dimension up to `10^10`, for every number of spheres from 1 to `n + 1` whose centres keep the distance `1e-5` from
degeneracy, all radii and all random directions: when the routine reports success, the point returned has the same power to all the spheres and lies in the affine
hull of their centres, and it is the only such point. -/
theorem C71_power_vertex (n m : Nat) (hn : (n : ℝ) ≤ 1e10) (hm : 1 ≤ m) (hmn : m ≤ n + 1) (c : Nat → Nat → ℝ) (r : Nat → ℝ) (hsp : Spread n m c) (dart : Nat → Nat → ℝ) :
    ∃ o, powerVertexN n m c r dart = some o ∧ ∀ pv, o = some pv →
      (∀ i, i < m → power n pv (c i) (r i) = power n pv (c 0) (r 0)) ∧
      (∃ v ∈ Submodule.span ℝ (arms c (m - 1)), ∀ d, d < n → pv d = c 0 d + v d) ∧
      ∀ y, (∀ i, i < m → power n y (c i) (r i) = power n y (c 0) (r 0)) → (∃ v ∈ Submodule.span ℝ (arms c (m - 1)), ∀ d, d < n → y d = c 0 d + v d) →
        ∀ d, d < n → y d = pv d := by
  unfold powerVertexN
  rw [if_neg (by omega)]
  have hinit : PvInv n m 0 { c := c, r := r, b := axis, x := c 0 } :=
    ⟨axis_ortho n, fun j hj => by omega, fun i h1 h2 => by omega, fun i h1 h2 => by omega⟩
  cases e : pvSpokes n m dart (m - 1) 0 { c := c, r := r, b := axis, x := c 0 } with
  | none => exact ⟨none, rfl, fun pv h => by simp at h⟩
  | some s =>
    obtain ⟨hi, hsh⟩ := pvSpokes_spec hn hmn dart (m - 1) 0 (by omega) hinit hsp e
    have hc0 : s.c 0 = c 0 := by
      rcases hsh with h | h
      · rw [h.1]
      · exact h.zero.1
    have hr0 : s.r 0 = r 0 := by
      rcases hsh with h | h
      · rw [h.2]
      · exact h.zero.2
    have hbwd : ∀ i, 1 ≤ i → i < m → ∃ j, 1 ≤ j ∧ j < m ∧ s.c j = c i ∧ s.r j = r i := by
      rcases hsh with h | h
      · exact fun i h1 h2 => ⟨i, h1, h2, by rw [h.1], by rw [h.2]⟩
      · exact h.bwd
    have hfwd : ∀ i, 1 ≤ i → i < m → ∃ j, 1 ≤ j ∧ j < m ∧ c j = s.c i ∧ r j = s.r i := by
      rcases hsh with h | h
      · exact fun i h1 h2 => ⟨i, h1, h2, by rw [h.1], by rw [h.2]⟩
      · exact h.fwd
    refine ⟨_, rfl, fun pv hpv => ?_⟩
    simp only [Option.some.injEq] at hpv
    set v := pvProject n s.b (List.range' (m - 1) (n - (m - 1))) (fun d => s.x d - s.c 0 d) with hv
    have hpv' : pv = c 0 + v := by rw [← hpv, ← hc0]; rfl
    obtain ⟨hp1, hp2⟩ := pvProject_spec hi.ortho (n - (m - 1)) (m - 1) (by omega) (fun d => s.x d - s.c 0 d)
    rw [← hv] at hp1 hp2
    have hrad : ∀ i, 1 ≤ i → i < m → OnRadical n s.c s.r i pv := by
      intro i h1 h2
      have hpl := hi.plane i h1 (by omega)
      unfold OnRadical at hpl ⊢
      rw [← hpl, hpv', hc0, add_sub_cancel_left, hp1 _ fun j hj hjn => by rw [ip_comm, ← hc0]; exact hi.arm_orth h1 (by omega) hj hjn (by omega)]
      rw [← hc0]; rfl
    have harms : arms s.c (m - 1) ⊆ arms c (m - 1) := by
      rintro u ⟨i, h1, h2, rfl⟩
      obtain ⟨j, j1, j2, j3, -⟩ := hfwd i h1 (by omega)
      exact ⟨j, j1, by omega, by rw [j3, hc0]⟩
    have hpow : ∀ i, i < m → power n pv (c i) (r i) = power n pv (c 0) (r 0) := by
      intro i h
      rcases Nat.eq_zero_or_pos i with rfl | h0
      · rfl
      · obtain ⟨j, j1, j2, j3, j4⟩ := hbwd i h0 h
        have := onRadical_iff.1 (hrad j j1 j2)
        rw [j3, j4, hc0, hr0] at this
        exact this.symm
    have hhull : ∃ v ∈ Submodule.span ℝ (arms c (m - 1)), ∀ d, d < n → pv d = c 0 d + v d := by
      refine ⟨∑ j ∈ Finset.range (m - 1), ip n v (s.b j) • s.b j, ?_, fun d hd => ?_⟩
      · refine Submodule.sum_mem _ fun j hj => Submodule.smul_mem _ _ (Submodule.span_mono harms (hi.inArms j (Finset.mem_range.1 hj)))
      · rw [hpv', Pi.add_apply, hi.ortho.expand v hd, Finset.sum_apply]
        congr 1
        have hsub : Finset.range (m - 1) ⊆ Finset.range n := Finset.range_subset_range.2 (by omega)
        rw [← Finset.sum_subset hsub fun j h1 h2 => by
          rw [hp2 j (by simpa using h2) (Finset.mem_range.1 h1), zero_mul]]
        exact Finset.sum_congr rfl fun j _ => by simp
    refine ⟨hpow, hhull, fun y hy hyh d hd => ?_⟩
    obtain ⟨v1, hv1, e1⟩ := hhull
    obtain ⟨v2, hv2, e2⟩ := hyh
    have hdiff : ip n (v2 - v1) (v2 - v1) = 0 := by
      refine ip_span ?_ (Submodule.sub_mem _ hv2 hv1)
      rintro u ⟨i, h1, h2, rfl⟩
      have a1 := onRadical_iff.2 (hpow i (by omega)).symm
      have a2 := onRadical_iff.2 (hy i (by omega)).symm
      unfold OnRadical at a1 a2
      rw [ip_comm, ip_sub_left]
      have b1 : ip n v1 (c i - c 0) = ip n (pv - c 0) (c i - c 0) := ip_congr (fun d hd => by rw [Pi.sub_apply, e1 d hd]; ring) (fun _ _ => rfl)
      have b2 : ip n v2 (c i - c 0) = ip n (y - c 0) (c i - c 0) := ip_congr (fun d hd => by rw [Pi.sub_apply, e2 d hd]; ring) (fun _ _ => rfl)
      rw [b1, b2, a1, a2, sub_self]
    have := ip_self_eq_zero hdiff hd
    rw [Pi.sub_apply] at this
    rw [e1 d hd, e2 d hd]; linarith

/-! ## Success is possible -/

theorem pvTrim_keeps {n : Nat} {s : PvState} {dir : Nat → ℝ} (is : List Nat) (a : Option ℝ × Nat) (h : a.1 ≠ none) : (pvTrim n s dir is a).1 ≠ none := by
  induction is generalizing a with
  | nil => exact h
  | cons i is ih =>
    rw [pvTrim]
    split
    · exact ih a h
    · simp only
      split
      · exact ih _ (by simp)
      · split
        · exact ih _ (by simp)
        · exact ih a h

theorem pvTrim_found {n : Nat} {s : PvState} {dir : Nat → ℝ} (is : List Nat) (a : Option ℝ × Nat) (h : ∃ i ∈ is, 1e-10 ≤ |pvDot2 n s dir i|) :
    (pvTrim n s dir is a).1 ≠ none := by
  induction is generalizing a with
  | nil => obtain ⟨i, hi, -⟩ := h; simp at hi
  | cons i is ih =>
    rw [pvTrim]
    split
    · next hlt =>
      obtain ⟨j, hj, hj'⟩ := h
      rcases List.mem_cons.1 hj with rfl | hj
      · exact absurd hlt (not_lt.2 hj')
      · exact ih a ⟨j, hj, hj'⟩
    · simp only
      split
      · exact pvTrim_keeps _ _ (by simp)
      · next b hb =>
        split
        · exact pvTrim_keeps _ _ (by simp)
        · exact pvTrim_keeps _ _ (by rw [hb]; simp)

theorem OrthoN.parseval {n : Nat} {b : Nat → Nat → ℝ} (h : OrthoN n b n) (u : Nat → ℝ) : ip n u u = ∑ j ∈ Finset.range n, ip n u (b j) ^ 2 := by
  have e : ∀ d ∈ Finset.range n, u d * u d = ∑ j ∈ Finset.range n, ip n u (b j) * (u d * b j d) := fun d hd => by
    have h1 : u d * u d = u d * ∑ j ∈ Finset.range n, ip n u (b j) * b j d := congrArg (u d * ·) (h.expand u (Finset.mem_range.1 hd))
    rw [h1, Finset.mul_sum]
    exact Finset.sum_congr rfl fun j _ => by ring
  rw [show ip n u u = ∑ d ∈ Finset.range n, u d * u d from rfl, Finset.sum_congr rfl e, Finset.sum_comm]
  refine Finset.sum_congr rfl fun j _ => ?_
  rw [← Finset.mul_sum, sq]; rfl

theorem spokeDir_ip (n : Nat) (dart : Nat → ℝ) (b : Nat → Nat → ℝ) (k l : Nat) (y : Nat → ℝ) :
    ip n (spokeDir dart b k l) y = ∑ j ∈ Finset.range l, dart j * ip n (b (k + j)) y := by
  induction l with
  | zero => exact ip_zero_left n y
  | succ l ih =>
    have e : spokeDir dart b k (l + 1) = spokeDir dart b k l + dart l • b (k + l) := by
      funext d; simp [spokeDir]
    rw [e, ip_add_left, ip_smul_left, ih, Finset.sum_range_succ]

theorem ip_sum_smul (n : Nat) (a : Nat → ℝ) (b : Nat → Nat → ℝ) (y : Nat → ℝ) (q : Nat) :
    ip n (∑ j ∈ Finset.range q, a j • b j) y = ∑ j ∈ Finset.range q, a j * ip n (b j) y := by
  induction q with
  | zero => exact ip_zero_left n _
  | succ q ih => rw [Finset.sum_range_succ, ip_add_left, ip_smul_left, ih, Finset.sum_range_succ]

theorem pvSpoke_possible {n m k : Nat} (hm : m ≤ n + 1) (hk : k + 1 < m) {s : PvState} (h : PvInv n m k s) (hsp : Spread n m s.c) :
    ∃ dart : Nat → ℝ, ∑ j ∈ Finset.range (n - k), dart j ^ 2 = 1 ∧ ∃ s', pvSpoke n m dart k s = some s' := by
  set M := s.c (k + 1) - s.c 0 with hM
  set g : Nat → ℝ := fun j => ip n (s.b (k + j)) M with hg
  set N := ∑ j ∈ Finset.range (n - k), g j ^ 2 with hN
  have hbig : 1e-10 ≤ N := by
    set v : Nat → ℝ := ∑ j ∈ Finset.range k, ip n M (s.b j) • s.b j with hv
    have hvmem : v ∈ Submodule.span ℝ {u | ∃ j, 1 ≤ j ∧ j < m ∧ j ≠ k + 1 ∧ u = s.c j - s.c 0} := by
      refine Submodule.sum_mem _ fun j hj => Submodule.smul_mem _ _ (Submodule.span_mono ?_ (h.inArms j (Finset.mem_range.1 hj)))
      rintro u ⟨i, h1, h2, rfl⟩
      exact ⟨i, h1, by omega, by omega, rfl⟩
    have h1 := hsp (k + 1) (by omega) hk v hvmem
    rw [← hM, h.ortho.parseval] at h1
    have hvb : ∀ l, l < n → ip n v (s.b l) = if l < k then ip n M (s.b l) else 0 := by
      intro l hl
      have : ip n v (s.b l) = ∑ j ∈ Finset.range k, ip n M (s.b j) * ip n (s.b j) (s.b l) := by
        rw [hv]; exact ip_sum_smul n (fun j => ip n M (s.b j)) s.b (s.b l) k
      rw [this]
      split
      · next hlk =>
        rw [Finset.sum_eq_single l]
        · rw [h.ortho l l hl hl, if_pos rfl, mul_one]
        · intro j hj hne; rw [h.ortho j l (by have := Finset.mem_range.1 hj; omega) hl, if_neg hne, mul_zero]
        · intro hh; exact absurd (Finset.mem_range.2 hlk) hh
      · next hlk =>
        refine Finset.sum_eq_zero fun j hj => ?_
        have := Finset.mem_range.1 hj
        rw [h.ortho j l (by omega) hl, if_neg (by omega), mul_zero]
    have h2 : ∑ j ∈ Finset.range n, ip n (M - v) (s.b j) ^ 2 = N := by
      rw [show n = k + (n - k) by omega, Finset.sum_range_add]
      rw [show k + (n - k) = n by omega]
      rw [Finset.sum_eq_zero, zero_add, hN]
      · refine Finset.sum_congr rfl fun j hj => ?_
        have := Finset.mem_range.1 hj
        rw [ip_sub_left, hvb (k + j) (by omega), if_neg (by omega), sub_zero, ip_comm]
      · intro j hj
        have := Finset.mem_range.1 hj
        rw [ip_sub_left, hvb j (by omega), if_pos this, sub_self]; norm_num
    rw [h2] at h1; exact h1
  have hpos : 0 < N := lt_of_lt_of_le (by norm_num) hbig
  have hsN : 0 < Real.sqrt N := Real.sqrt_pos.2 hpos
  refine ⟨fun j => g j / Real.sqrt N, ?_, ?_⟩
  · have : ∀ j ∈ Finset.range (n - k), (g j / Real.sqrt N) ^ 2 = g j ^ 2 / N := fun j _ => by rw [div_pow, Real.sq_sqrt hpos.le]
    rw [Finset.sum_congr rfl this, ← Finset.sum_div, ← hN, div_self hpos.ne']
  · have hdot : pvDot2 n s (spokeDir (fun j => g j / Real.sqrt N) s.b k (n - k)) (k + 1) = Real.sqrt N := by
      rw [pvDot2_eq, spokeDir_ip]
      have : ∀ j ∈ Finset.range (n - k), g j / Real.sqrt N * ip n (s.b (k + j)) (s.c (k + 1) - s.c 0) = g j ^ 2 / Real.sqrt N := fun j _ => by
        rw [← hM]; show g j / Real.sqrt N * g j = _; ring
      rw [Finset.sum_congr rfl this, ← Finset.sum_div, ← hN, Real.div_sqrt]
    have hlow : 1e-10 ≤ |Real.sqrt N| := by
      rw [abs_of_pos hsN]
      exact Real.le_sqrt_of_sq_le (le_trans (by norm_num) hbig)
    have hfound := pvTrim_found (n := n) (s := s) (dir := spokeDir (fun j => g j / Real.sqrt N) s.b k (n - k)) (List.range' (k + 1) (m - (k + 1))) (none, 0)
      ⟨k + 1, by rw [List.mem_range'_1]; omega, by rw [hdot]; exact hlow⟩
    have hidx := pvTrim_spec (n := n) (s := s) (dir := spokeDir (fun j => g j / Real.sqrt N) s.b k (n - k)) (List.range' (k + 1) (m - (k + 1))) (none, 0)
      (fun p _ => 1 ≤ p) (fun i hi _ => by rw [List.mem_range'_1] at hi; omega) (Or.inl rfl)
    unfold pvSpoke
    simp only
    generalize pvTrim n s (spokeDir (fun j => g j / Real.sqrt N) s.b k (n - k)) (List.range' (k + 1) (m - (k + 1))) (none, 0) = t at hfound hidx ⊢
    obtain ⟨t1, t2⟩ := t
    rcases hidx with hh | ⟨α, h1, h2⟩
    · rw [hh] at hfound; exact absurd rfl hfound
    · simp only at h1 h2
      obtain ⟨p, rfl⟩ : ∃ p, t2 = p + 1 := ⟨t2 - 1, by omega⟩
      subst h1
      exact ⟨_, rfl⟩

theorem pvSpokes_congr {n m : Nat} {dart dart' : Nat → Nat → ℝ} (l k : Nat) (s : PvState) (h : ∀ j, k ≤ j → dart j = dart' j) :
    pvSpokes n m dart l k s = pvSpokes n m dart' l k s := by
  induction l generalizing k s with
  | zero => rfl
  | succ l ih =>
    rw [pvSpokes, pvSpokes, h k (le_refl _)]
    cases pvSpoke n m (dart' k) k s with
    | none => rfl
    | some s' => exact ih (k + 1) s' fun j hj => h j (by omega)

theorem pvSpokes_possible {n m : Nat} (hn : (n : ℝ) ≤ 1e10) (hm : m ≤ n + 1) (l k : Nat) (hlk : k + l + 1 = m) {s : PvState} (h : PvInv n m k s) (hsp : Spread n m s.c) :
    ∃ dart : Nat → Nat → ℝ, (∀ j, k ≤ j → j < k + l → ∑ d ∈ Finset.range (n - j), dart j d ^ 2 = 1) ∧ ∃ s', pvSpokes n m dart l k s = some s' := by
  induction l generalizing k s with
  | zero => exact ⟨fun _ _ => 0, fun j h1 h2 => by omega, s, rfl⟩
  | succ l ih =>
    obtain ⟨d0, hd0, s1, e1⟩ := pvSpoke_possible hm (by omega) h hsp
    obtain ⟨h1, h2, -⟩ := pvSpoke_spec hn hm (by omega) h hsp d0 e1
    obtain ⟨dart, hd, s2, e2⟩ := ih (k + 1) (by omega) h1 h2
    refine ⟨fun j => if j = k then d0 else dart j, fun j hj1 hj2 => ?_, s2, ?_⟩
    · simp only
      split
      · next hh => rw [hh]; exact hd0
      · exact hd j (by omega) (by omega)
    · rw [pvSpokes]
      simp only [if_true, e1]
      rw [← e2]
      exact pvSpokes_congr l (k + 1) s1 fun j hj => by simp [show j ≠ k by omega]

/-- **C71, success.** For all such spheres there are unit directions with which the routine succeeds. -/
theorem C71_success_possible (n m : Nat) (hn : (n : ℝ) ≤ 1e10) (hm : 1 ≤ m) (hmn : m ≤ n + 1) (c : Nat → Nat → ℝ) (r : Nat → ℝ) (hsp : Spread n m c) :
    ∃ dart : Nat → Nat → ℝ, (∀ j, j < m - 1 → ∑ d ∈ Finset.range (n - j), dart j d ^ 2 = 1) ∧ ∃ pv, powerVertexN n m c r dart = some (some pv) := by
  have hinit : PvInv n m 0 { c := c, r := r, b := axis, x := c 0 } :=
    ⟨axis_ortho n, fun j hj => by omega, fun i h1 h2 => by omega, fun i h1 h2 => by omega⟩
  obtain ⟨dart, hd, s, e⟩ := pvSpokes_possible hn hmn (m - 1) 0 (by omega) hinit hsp
  refine ⟨dart, fun j hj => hd j (by omega) (by omega), ?_⟩
  unfold powerVertexN
  rw [if_neg (by omega), e]
  exact ⟨_, rfl⟩

/-- **C71, precondition.** Without spheres, or with more than `n + 1`, the behaviour is undefined. -/
theorem C71_count_undefined (n m : Nat) (h : m = 0 ∨ n + 1 < m) (c : Nat → Nat → ℝ) (r : Nat → ℝ) (dart : Nat → Nat → ℝ) : powerVertexN n m c r dart = none := by
  unfold powerVertexN; rw [if_pos h]

/-- Three centres in space: the origin and one point on each of two axes. -/
def threeCentres (a b : ℝ) : Nat → Nat → ℝ := fun i => if i = 1 then mkSphere a 0 0 0 else if i = 2 then mkSphere 0 b 0 0 else mkSphere 0 0 0 0

theorem threeCentres_spread {a b : ℝ} (ha : 1e-10 ≤ a ^ 2) (hb : 1e-10 ≤ b ^ 2) : Spread 3 3 (threeCentres a b) := by
  intro i h1 h2 v hv
  have hi : i = 1 ∨ i = 2 := by omega
  rcases hi with rfl | rfl
  · have hv0 : v 0 = 0 := by
      have := ip_span (n := 3) (y := axis 0) ?_ hv
      · rwa [ip_axis 3 v (by norm_num)] at this
      · rintro u ⟨j, j1, j2, j3, rfl⟩
        have : j = 2 := by omega
        subst this
        rw [ip_axis 3 _ (by norm_num)]; simp [threeCentres, mkSphere]
    have e0 : (threeCentres a b 1 - threeCentres a b 0 - v) 0 = a := by simp [threeCentres, mkSphere, hv0]
    unfold ip
    rw [Finset.sum_range_succ, Finset.sum_range_succ, Finset.sum_range_one, e0]
    nlinarith [mul_self_nonneg ((threeCentres a b 1 - threeCentres a b 0 - v) 1), mul_self_nonneg ((threeCentres a b 1 - threeCentres a b 0 - v) 2)]
  · have hv1 : v 1 = 0 := by
      have := ip_span (n := 3) (y := axis 1) ?_ hv
      · rwa [ip_axis 3 v (by norm_num)] at this
      · rintro u ⟨j, j1, j2, j3, rfl⟩
        have : j = 1 := by omega
        subst this
        rw [ip_axis 3 _ (by norm_num)]; simp [threeCentres, mkSphere]
    have e1 : (threeCentres a b 2 - threeCentres a b 0 - v) 1 = b := by simp [threeCentres, mkSphere, hv1]
    unfold ip
    rw [Finset.sum_range_succ, Finset.sum_range_succ, Finset.sum_range_one, e1]
    nlinarith [mul_self_nonneg ((threeCentres a b 2 - threeCentres a b 0 - v) 0), mul_self_nonneg ((threeCentres a b 2 - threeCentres a b 0 - v) 2)]

-- non-vacuity: three spheres in space, unequal radii, with a run that succeeds
example : ∃ dart pv, powerVertexN 3 3 (threeCentres 1 2) (fun i => i + 1) dart = some (some pv) ∧
    power 3 pv (threeCentres 1 2 2) 3 = power 3 pv (threeCentres 1 2 0) 1 := by
  have hs := threeCentres_spread (a := 1) (b := 2) (by norm_num) (by norm_num)
  obtain ⟨dart, -, pv, e⟩ := C71_success_possible 3 3 (by norm_num) (by norm_num) (by norm_num) (threeCentres 1 2) (fun i => i + 1) hs
  obtain ⟨o, e', h⟩ := C71_power_vertex 3 3 (by norm_num) (by norm_num) (by norm_num) (threeCentres 1 2) (fun i => i + 1) hs dart
  rw [e] at e'
  simp only [Option.some.injEq] at e'
  refine ⟨dart, pv, e, ?_⟩
  have := (h pv e'.symm).1 2 (by norm_num)
  norm_num at this
  exact this

end VoroCrust
