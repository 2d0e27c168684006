import Verif.Props.VoroMesh
import Mathlib.Algebra.Order.BigOperators.Group.Finset

/-!
# The walk around a face with repeated vertices

Where more than four seeds are nearest to a point, a cell has several corners there, which are welded to one vertex.  The walk around a face then meets this vertex several times, one time after the other.
-/

namespace VoroCrust

open Classical

/-- The different values before `t`, in the order of their first place. -/
def firsts (v : Nat → Nat) : Nat → List Nat
  | 0 => []
  | t + 1 => if v t ∈ firsts v t then firsts v t else firsts v t ++ [v t]

variable {v : Nat → Nat}

theorem mem_firsts {t x : Nat} : x ∈ firsts v t ↔ ∃ a, a < t ∧ v a = x := by
  induction t with
  | zero => simp [firsts]
  | succ t ih =>
    unfold firsts
    constructor
    · intro h
      split_ifs at h with hm
      · obtain ⟨a, h1, h2⟩ := ih.1 h
        exact ⟨a, by omega, h2⟩
      · rcases List.mem_append.1 h with g | g
        · obtain ⟨a, h1, h2⟩ := ih.1 g
          exact ⟨a, by omega, h2⟩
        · exact ⟨t, by omega, (List.mem_singleton.1 g).symm⟩
    · rintro ⟨a, h1, rfl⟩
      rcases Nat.lt_or_eq_of_le (Nat.lt_succ_iff.1 h1) with g | rfl
      · split_ifs
        · exact ih.2 ⟨a, g, rfl⟩
        · exact List.mem_append_left _ (ih.2 ⟨a, g, rfl⟩)
      · split_ifs with hm
        · exact hm
        · exact List.mem_append_right _ (List.mem_singleton.2 rfl)

theorem firsts_nodup (t : Nat) : (firsts v t).Nodup := by
  induction t with
  | zero => simp [firsts]
  | succ t ih =>
    unfold firsts
    split_ifs with h
    · exact ih
    · refine List.nodup_append.2 ⟨ih, by simp, ?_⟩
      intro a ha b hb e
      rw [List.mem_singleton] at hb
      exact h (by rw [← hb, ← e]; exact ha)

theorem firsts_head {t : Nat} (ht : 0 < t) : (firsts v t).head? = some (v 0) := by
  induction t with
  | zero => omega
  | succ t ih =>
    cases t with
    | zero => simp [firsts]
    | succ t =>
      have := ih (by omega)
      unfold firsts
      split_ifs
      · exact this
      · rw [List.head?_append, this]; rfl

/-- The value at a place of the list, and where it came first. -/
theorem firsts_get {m : Nat} : ∀ {j x : Nat}, (firsts v m)[j]? = some x → ∃ t, t < m ∧ v t = x ∧ firsts v t = (firsts v m).take j := by
  induction m with
  | zero => intro j x h; simp [firsts] at h
  | succ m ih =>
    intro j x h
    by_cases hm : v m ∈ firsts v m
    · have e : firsts v (m + 1) = firsts v m := by rw [firsts, if_pos hm]
      rw [e] at h ⊢
      obtain ⟨t, h1, h2, h3⟩ := ih h
      exact ⟨t, by omega, h2, h3⟩
    · have e : firsts v (m + 1) = firsts v m ++ [v m] := by rw [firsts, if_neg hm]
      rw [e] at h ⊢
      rcases Nat.lt_or_ge j (firsts v m).length with g | g
      · rw [List.getElem?_append_left g] at h
        obtain ⟨t, h1, h2, h3⟩ := ih h
        exact ⟨t, by omega, h2, by rw [List.take_append_of_le_length g.le]; exact h3⟩
      · rw [List.getElem?_append_right g] at h
        have hj : j - (firsts v m).length = 0 := by
          by_contra hne
          rw [List.getElem?_eq_none (by simp; omega)] at h
          simp at h
        rw [hj] at h
        simp only [List.getElem?_cons_zero, Option.some.injEq] at h
        obtain rfl : j = (firsts v m).length := by omega
        exact ⟨m, by omega, h, by simp⟩

/-- Around the cycle of length `m` equal values are together. -/
def Together (v : Nat → Nat) (m : Nat) : Prop :=
  ∀ a b c d, a < b → b < c → c < d → d < m → (v a = v c → v b = v a ∨ v d = v a) ∧ (v b = v d → v a = v b ∨ v c = v b)

theorem firsts_stay {t m : Nat} (h : ∀ a, t ≤ a → a < m → v a ∈ firsts v t) : t ≤ m → firsts v m = firsts v t := by
  induction m with
  | zero => intro hm; rw [show t = 0 by omega]
  | succ m ih =>
    intro hm
    rcases Nat.lt_or_eq_of_le hm with g | g
    · have e := ih (fun a h1 h2 => h a h1 (by omega)) (by omega)
      rw [firsts, e, if_pos (h m (by omega) (by omega))]
    · rw [g]

/-- The walk lists the different vertices, in the order in which it meets them. -/
theorem faceWalk_firsts {C : Cells} {i nb m : Nat} {cyc : Nat → Nat} (h : FaceCycle C i nb m cyc) {l : List MeshCorner} (hl : C i = some l) {vtx : Nat → Option Nat}
    (hv : ∀ t, t < m → vtx (cyc t) = some (v t)) (hto : Together v m) (hcnt : ∀ x, ((Finset.range m).filter fun t => v t = x).card ≤ 100) :
    ∀ (f t : Nat), t < m → m ≤ t + f → faceWalk l vtx nb (cyc 0) f t (cyc t) (firsts v t) = some (some (firsts v m)) := by
  intro f
  induction f with
  | zero => intro t ht hf; omega
  | succ f ih =>
    intro t ht hf
    have hlen : ¬ t > 100 * (firsts v t).length := by
      have h1 := Finset.card_le_mul_card_image (f := v) (Finset.range t) 100 (fun a _ => le_trans (Finset.card_le_card (Finset.filter_subset_filter _ (Finset.range_mono ht.le))) (hcnt a))
      have h2 : ((Finset.range t).image v).card = (firsts v t).length := by
        rw [← List.toFinset_card_of_nodup (firsts_nodup (v := v) t)]
        congr 1
        ext x
        rw [List.mem_toFinset, mem_firsts, Finset.mem_image]
        simp only [Finset.mem_range]
      rw [Finset.card_range, h2] at h1
      omega
    unfold faceWalk
    rw [if_neg hlen, hv t ht]
    simp only
    by_cases hstop : (firsts v t).length > 2 ∧ (firsts v t).head? = some (v t)
    · rw [if_pos hstop]
      obtain ⟨h2, hh⟩ := hstop
      have ht0 : 0 < t := by
        rcases Nat.eq_zero_or_pos t with rfl | g
        · simp [firsts] at h2
        · exact g
      rw [firsts_head ht0, Option.some.injEq] at hh
      obtain ⟨b, hb, hb0⟩ : ∃ b, b < t ∧ v b ≠ v 0 := by
        by_contra hno
        push Not at hno
        have hsub : (firsts v t).toFinset ⊆ {v 0} := fun x hx => by
          rw [List.mem_toFinset, mem_firsts] at hx
          obtain ⟨a, h1, rfl⟩ := hx
          rw [Finset.mem_singleton]
          exact hno a h1
        have := Finset.card_le_card hsub
        rw [List.toFinset_card_of_nodup (firsts_nodup (v := v) t), Finset.card_singleton] at this
        omega
      have hbp : 0 < b := by
        rcases Nat.eq_zero_or_pos b with rfl | g
        · exact absurd rfl hb0
        · exact g
      rw [firsts_stay (fun a h1 h2 => ?_) ht.le]
      refine mem_firsts.2 ⟨0, ht0, ?_⟩
      rcases Nat.lt_or_eq_of_le h1 with g | rfl
      · exact (((hto 0 b t a hbp hb g h2).1 hh).resolve_left hb0).symm
      · exact hh
    · rw [if_neg hstop, h.next hl ht]
      simp only
      have e : (if v t ∈ firsts v t then firsts v t else firsts v t ++ [v t]) = firsts v (t + 1) := by rw [firsts]
      rw [e]
      by_cases hc : t + 1 = m
      · rw [hc, if_pos h.close]
      · rw [if_neg (h.open_ (t + 1) (by omega) (by omega))]
        exact ih (t + 1) (by omega) (by omega)

/-- Neighbours in the list are neighbours on the cycle. -/
theorem firsts_next {m : Nat} (hto : Together v m) {j x y : Nat} (hx : (firsts v m)[j]? = some x) (hy : (firsts v m)[j + 1]? = some y) : ∃ t, t + 1 < m ∧ v t = x ∧ v (t + 1) = y := by
  have hnd := firsts_nodup (v := v) m
  obtain ⟨t, t1, t2, t3⟩ := firsts_get hy
  obtain ⟨tj, s1, s2, s3⟩ := firsts_get hx
  obtain ⟨hj, hjx⟩ := List.getElem?_eq_some_iff.1 hx
  obtain ⟨hj1, hjy⟩ := List.getElem?_eq_some_iff.1 hy
  have hxt : x ∈ firsts v t := by
    rw [t3, List.mem_take_iff_getElem]
    exact ⟨j, by omega, hjx⟩
  have hyt : y ∉ firsts v t := by
    rw [t3, List.mem_take_iff_getElem]
    rintro ⟨a, ha, e⟩
    have := (List.Nodup.getElem_inj_iff hnd).1 (e.trans hjy.symm)
    omega
  have hxj : x ∉ firsts v tj := by
    rw [s3, List.mem_take_iff_getElem]
    rintro ⟨a, ha, e⟩
    have := (List.Nodup.getElem_inj_iff hnd).1 (e.trans hjx.symm)
    omega
  have ht0 : 0 < t := by
    rcases Nat.eq_zero_or_pos t with rfl | g
    · simp [firsts] at hxt
    · exact g
  obtain ⟨u, rfl⟩ : ∃ u, t = u + 1 := ⟨t - 1, by omega⟩
  have hu : v u ∈ firsts v (u + 1) := mem_firsts.2 ⟨u, by omega, rfl⟩
  rw [t3, List.mem_take_iff_getElem] at hu
  obtain ⟨j', hj', e'⟩ := hu
  by_cases hjj : j' = j
  · subst hjj
    exact ⟨u, t1, e'.symm.trans hjx, t2⟩
  exfalso
  have hux : v u ≠ x := fun e => by
    have := (List.Nodup.getElem_inj_iff hnd).1 (e'.trans (e.trans hjx.symm))
    exact hjj this
  have huj : v u ∈ firsts v tj := by
    rw [s3, List.mem_take_iff_getElem]
    exact ⟨j', by omega, e'⟩
  obtain ⟨a, ha, hav⟩ := mem_firsts.1 huj
  have htu : tj < u := by
    obtain ⟨b, hb, hbx⟩ := mem_firsts.1 hxt
    have h1 : tj ≤ b := by
      by_contra hlt
      exact hxj (mem_firsts.2 ⟨b, by omega, hbx⟩)
    have h2 : tj ≠ u := fun e => hux (by rw [← e]; exact s2)
    omega
  rcases (hto a tj u (u + 1) ha htu (by omega) t1).1 hav with g | g
  · exact hux (by rw [← hav, ← g]; exact s2)
  · exact hyt (mem_firsts.2 ⟨a, by omega, by rw [← g]; exact t2⟩)

/-- The last and the first of the list are neighbours on the cycle. -/
theorem firsts_last {m : Nat} (hm : 0 < m) (hto : Together v m) {j x : Nat} (hx : (firsts v m)[j]? = some x) (hj : (firsts v m).length = j + 1) (hj0 : 0 < j) : ∃ t, t < m ∧ v t = x ∧ v ((t + 1) % m) = v 0 := by
  have hnd := firsts_nodup (v := v) m
  obtain ⟨hjl, hjx⟩ := List.getElem?_eq_some_iff.1 hx
  obtain ⟨tx, t1, t2, t3⟩ := firsts_get hx
  have hne : ((Finset.range m).filter fun t => v t = x).Nonempty := ⟨tx, Finset.mem_filter.2 ⟨Finset.mem_range.2 t1, t2⟩⟩
  have hmem := Finset.max'_mem _ hne
  generalize htd : ((Finset.range m).filter fun t => v t = x).max' hne = t at hmem
  rw [Finset.mem_filter, Finset.mem_range] at hmem
  have hmax : ∀ a, a < m → v a = x → a ≤ t := fun a h1 h2 => by
    rw [← htd]
    exact Finset.le_max' _ _ (Finset.mem_filter.2 ⟨Finset.mem_range.2 h1, h2⟩)
  refine ⟨t, hmem.1, hmem.2, ?_⟩
  by_cases hlast : t + 1 = m
  · rw [hlast, Nat.mod_self]
  rw [Nat.mod_eq_of_lt (by omega)]
  by_contra h0
  have hyx : v (t + 1) ≠ x := fun e => by have := hmax (t + 1) (by omega) e; omega
  have hy : v (t + 1) ∈ firsts v m := mem_firsts.2 ⟨t + 1, by omega, rfl⟩
  obtain ⟨j', hj', e'⟩ := List.mem_iff_getElem.1 hy
  have hjj : j' < j := by
    rcases Nat.lt_or_ge j' j with g | g
    · exact g
    · have : j' = j := by omega
      subst this
      exact absurd (e'.symm.trans hjx) hyx
  have hyt : v (t + 1) ∈ firsts v tx := by
    rw [t3, List.mem_take_iff_getElem]
    exact ⟨j', by omega, e'⟩
  obtain ⟨b, hb, hbv⟩ := mem_firsts.1 hyt
  have hb0 : 0 < b := by
    rcases Nat.eq_zero_or_pos b with rfl | g
    · exact absurd hbv.symm h0
    · exact g
  have htx : tx ≤ t := hmax tx t1 t2
  rcases (hto 0 b tx (t + 1) hb0 hb (by omega) (by omega)).2 hbv with g | g
  · exact h0 (by rw [g, hbv])
  · exact hyx (by rw [← hbv, ← g]; exact t2)

end VoroCrust
