import Verif.Lemmas.KdTree
import Verif.Model.KdOrder

/-! # Lemmas: locality re-enumeration -/

set_option linter.unusedSimpArgs false

namespace VoroCrust

/-- Right-first preorder of a tree. -/
def KT.pre : KT → List Nat
  | .nil => []
  | .node i l r => i :: (r.pre ++ l.pre)

theorem KT.pre_perm (t : KT) : t.pre.Perm t.idx := by
  induction t with
  | nil => exact List.Perm.refl _
  | node i l r ihl ihr =>
    simp only [KT.pre, KT.idx]
    exact List.Perm.cons _ ((List.Perm.append ihr ihl).trans List.perm_append_comm)

/-- Write the list `ps` at position `m`. -/
def writeAt (o : Nat → Option Nat) (m : Nat) (ps : List Nat) : Nat → Option Nat :=
  fun k => if m ≤ k ∧ k < m + ps.length then ps[k - m]? else o k

theorem writeAt_nil (o : Nat → Option Nat) (m : Nat) : writeAt o m [] = o := by
  funext k; simp only [writeAt, List.length_nil]; rw [if_neg (by omega)]

theorem writeAt_cons (o : Nat → Option Nat) (m i : Nat) (ps : List Nat) :
    writeAt (upd o m (some i)) (m + 1) ps = writeAt o m (i :: ps) := by
  funext k
  simp only [writeAt, upd, List.length_cons]
  by_cases h1 : m + 1 ≤ k ∧ k < m + 1 + ps.length
  · rw [if_pos h1, if_pos (by omega)]
    rw [show k - m = (k - (m + 1)) + 1 by omega]
    simp
  · rw [if_neg h1]
    by_cases h2 : k = m
    · subst h2; simp
    · rw [if_neg h2, if_neg (by omega)]

theorem writeAt_append (o : Nat → Option Nat) (m : Nat) (ps qs : List Nat) :
    writeAt (writeAt o m ps) (m + ps.length) qs = writeAt o m (ps ++ qs) := by
  induction ps generalizing o m with
  | nil => simp [writeAt_nil]
  | cons i ps ih =>
    rw [List.cons_append, ← writeAt_cons, ← writeAt_cons, ← ih]
    congr 1; simp only [List.length_cons]; omega

theorem nodesOrder_spec {n : Nat} {L R : Nat → Nat} (fuel : Nat) (t : KT) (i m : Nat) (o : Nat → Option Nat)
    (h : Rep L R i t) (hb : ∀ k ∈ t.idx, k < n) (hf : t.idx.length ≤ fuel) (hm : m + t.pre.length ≤ n) :
    nodesOrder n L R fuel i (m, o) = some (m + t.pre.length, writeAt o m t.pre) := by
  induction t generalizing fuel i m o with
  | nil => simp [Rep] at h
  | node j l r ihl ihr =>
    simp only [Rep] at h
    obtain ⟨rfl, hl, hr⟩ := h
    simp only [KT.idx, List.length_cons, List.length_append] at hf
    simp only [KT.pre, List.length_cons, List.length_append] at hm
    cases fuel with
    | zero => omega
    | succ fuel =>
      have hi := hb i (by simp [KT.idx])
      have hpl := l.pre_perm.length_eq
      have hpr := r.pre_perm.length_eq
      have bl : ∀ k ∈ l.idx, k < n := fun k hk => hb k (by simp [KT.idx, hk])
      have br : ∀ k ∈ r.idx, k < n := fun k hk => hb k (by simp [KT.idx, hk])
      have e1 : (if R i ≠ i then nodesOrder n L R fuel (R i) (m + 1, upd o m (some i)) else some (m + 1, upd o m (some i))) =
          some (m + 1 + r.pre.length, writeAt o m (i :: r.pre)) := by
        rcases hr with ⟨h1, h2⟩ | ⟨h1, h2⟩
        · rw [if_neg (by simpa using h2)]
          subst h1
          rw [← writeAt_cons]; simp [KT.pre, writeAt_nil]
        · rw [if_pos h1, ihr fuel (R i) (m + 1) _ h2 br (by omega) (by omega), writeAt_cons]
      have e2 : (if L i ≠ i then nodesOrder n L R fuel (L i) (m + 1 + r.pre.length, writeAt o m (i :: r.pre))
            else some (m + 1 + r.pre.length, writeAt o m (i :: r.pre))) =
          some (m + (1 + (r.pre.length + l.pre.length)), writeAt o m (i :: (r.pre ++ l.pre))) := by
        rcases hl with ⟨h1, h2⟩ | ⟨h1, h2⟩
        · rw [if_neg (by simpa using h2)]
          subst h1
          simp [KT.pre]; omega
        · rw [if_pos h1, ihl fuel (L i) (m + 1 + r.pre.length) _ h2 bl (by omega) (by omega)]
          rw [show m + 1 + r.pre.length = m + (i :: r.pre).length by simp only [List.length_cons]; omega, writeAt_append]
          simp only [List.cons_append, List.length_cons]
          congr 2; omega
      simp only [nodesOrder]
      rw [if_pos ⟨hi, by omega⟩]
      simp only [e1, Option.bind_some, e2, KT.pre, List.length_cons, List.length_append]
      congr 2; omega

theorem invertLoop_spec {n : Nat} {ord : Nat → Option Nat} {ps : List Nat} (hnd : ps.Nodup) (hb : ∀ c ∈ ps, c < n)
    (ho : ∀ k, k < ps.length → ord k = ps[k]?) (k : Nat) (hk : k ≤ ps.length) :
    ∃ nw, invertLoop n ord k = some nw ∧ ∀ j (hj : j < k), nw (ps[j]'(by omega)) = some j := by
  induction k with
  | zero => exact ⟨_, rfl, fun j hj => absurd hj (by omega)⟩
  | succ k ih =>
    obtain ⟨nw, e, h⟩ := ih (by omega)
    have hk' : k < ps.length := by omega
    have e2 := ho k hk'
    rw [List.getElem?_eq_getElem hk'] at e2
    refine ⟨upd nw ps[k] (some k), ?_, ?_⟩
    · simp only [invertLoop, e, e2]
      rw [if_pos (hb _ (List.getElem_mem hk'))]
    · intro j hj
      by_cases hjk : j = k
      · subst hjk; simp [upd]
      · have hne : ps[j]'(by omega) ≠ ps[k] := by
          intro he
          exact hjk ((List.Nodup.getElem_inj_iff hnd).1 he)
        simp only [upd, hne, if_false]
        exact h j (by omega)

theorem fillLoop_spec {α : Type} {f : Nat → Option α} {g : Nat → α} (a : Nat → α) (k : Nat) (h : ∀ i, i < k → f i = some (g i)) :
    ∃ b, fillLoop f a k = some b ∧ (∀ i, i < k → b i = g i) := by
  induction k with
  | zero => exact ⟨a, rfl, fun i hi => absurd hi (by omega)⟩
  | succ k ih =>
    obtain ⟨b, e, hb⟩ := ih (fun i hi => h i (by omega))
    refine ⟨upd b k (g k), by simp [fillLoop, e, h k (by omega)], ?_⟩
    intro i hi
    by_cases hik : i = k
    · subst hik; simp [upd]
    · simp only [upd, hik, if_false]; exact hb i (by omega)

/-- Rename the nodes. -/
def KT.map (f : Nat → Nat) : KT → KT
  | .nil => .nil
  | .node i l r => .node (f i) (l.map f) (r.map f)

theorem KT.map_idx (f : Nat → Nat) (t : KT) : (t.map f).idx = t.idx.map f := by
  induction t with
  | nil => rfl
  | node i l r ihl ihr => simp [KT.map, KT.idx, ihl, ihr]

theorem Rep.map {L R L' R' : Nat → Nat} {f : Nat → Nat} {i : Nat} {t : KT} (h : Rep L R i t)
    (hinj : ∀ a ∈ t.idx, ∀ b ∈ t.idx, f a = f b → a = b)
    (hc : ∀ k ∈ t.idx, L' (f k) = f (L k) ∧ R' (f k) = f (R k)) : Rep L' R' (f i) (t.map f) := by
  induction t generalizing i with
  | nil => simp [Rep] at h
  | node j l r ihl ihr =>
    simp only [Rep, KT.map] at h ⊢
    obtain ⟨rfl, hl, hr⟩ := h
    have hi : i ∈ (KT.node i l r).idx := by simp [KT.idx]
    obtain ⟨c1, c2⟩ := hc i hi
    refine ⟨rfl, ?_, ?_⟩
    · rcases hl with ⟨h1, h2⟩ | ⟨h1, h2⟩
      · left; subst h1; exact ⟨rfl, by rw [c1, h2]⟩
      · right
        have hm : L i ∈ (KT.node i l r).idx := by have := h2.mem; simp [KT.idx, this]
        rw [c1]
        refine ⟨fun he => h1 (hinj _ hm _ hi he), ihl h2 (fun a ha b hb => ?_) (fun k hk => ?_)⟩
        · exact hinj a (by simp [KT.idx, ha]) b (by simp [KT.idx, hb])
        · exact hc k (by simp [KT.idx, hk])
    · rcases hr with ⟨h1, h2⟩ | ⟨h1, h2⟩
      · left; subst h1; exact ⟨rfl, by rw [c2, h2]⟩
      · right
        have hm : R i ∈ (KT.node i l r).idx := by have := h2.mem; simp [KT.idx, this]
        rw [c2]
        refine ⟨fun he => h1 (hinj _ hm _ hi he), ihr h2 (fun a ha b hb => ?_) (fun k hk => ?_)⟩
        · exact hinj a (by simp [KT.idx, ha]) b (by simp [KT.idx, hb])
        · exact hc k (by simp [KT.idx, hk])

theorem Ordered.map {κ : Type} {P Q : PointStore κ} (hd : Q.dim = P.dim) (hlt : Q.lt = P.lt) {f : Nat → Nat} {t : KT} {d : Nat}
    (h : Ordered P d t) (hp : ∀ k ∈ t.idx, Q.pts (f k) = P.pts k) : Ordered Q d (t.map f) := by
  induction t generalizing d with
  | nil => simp [Ordered, KT.map]
  | node i l r ihl ihr =>
    simp only [Ordered, KT.map] at h ⊢
    obtain ⟨h1, h2, h3, h4⟩ := h
    have hi := hp i (by simp [KT.idx])
    refine ⟨?_, ?_, ?_, ?_⟩
    · intro j hj
      rw [KT.map_idx, List.mem_map] at hj
      obtain ⟨k, hk, rfl⟩ := hj
      rw [hlt, hi, hp k (by simp [KT.idx, hk])]; exact h1 k hk
    · intro j hj
      rw [KT.map_idx, List.mem_map] at hj
      obtain ⟨k, hk, rfl⟩ := hj
      rw [hlt, hi, hp k (by simp [KT.idx, hk])]; exact h2 k hk
    · rw [hd]; exact ihl h3 (fun k hk => hp k (by simp [KT.idx, hk]))
    · rw [hd]; exact ihr h4 (fun k hk => hp k (by simp [KT.idx, hk]))

theorem Rep.children {L R : Nat → Nat} {i : Nat} {t : KT} (h : Rep L R i t) : ∀ k ∈ t.idx, L k ∈ t.idx ∧ R k ∈ t.idx := by
  induction t generalizing i with
  | nil => simp [Rep] at h
  | node j l r ihl ihr =>
    simp only [Rep] at h
    obtain ⟨rfl, hl, hr⟩ := h
    have hLi : L i ∈ (KT.node i l r).idx := by
      rcases hl with ⟨_, h2⟩ | ⟨_, h2⟩
      · rw [h2]; simp [KT.idx]
      · have := h2.mem; simp [KT.idx, this]
    have hRi : R i ∈ (KT.node i l r).idx := by
      rcases hr with ⟨_, h2⟩ | ⟨_, h2⟩
      · rw [h2]; simp [KT.idx]
      · have := h2.mem; simp [KT.idx, this]
    intro k hk
    simp only [KT.idx, List.mem_cons, List.mem_append] at hk
    rcases hk with rfl | hk | hk
    · exact ⟨hLi, hRi⟩
    · rcases hl with ⟨h1, _⟩ | ⟨_, h2⟩
      · subst h1; simp [KT.idx] at hk
      · have := ihl h2 k hk
        exact ⟨by simp [KT.idx, this.1], by simp [KT.idx, this.2]⟩
    · rcases hr with ⟨h1, _⟩ | ⟨_, h2⟩
      · subst h1; simp [KT.idx] at hk
      · have := ihr h2 k hk
        exact ⟨by simp [KT.idx, this.1], by simp [KT.idx, this.2]⟩

theorem reEnumerate_spec {κ : Type} {P : PointStore κ} {ln : Links} {t : KT} (h : TreeOK P ln t) (hne : t ≠ .nil)
    (hp : t.idx.Perm (List.range P.num)) :
    ∃ (r : ReEnum κ) (f : Nat → Nat), reEnumerate P ln = some r ∧ r.store.num = P.num ∧ r.store.dim = P.dim ∧ r.store.lt = P.lt ∧
      (∀ i, i < P.num → ∃ c, c < P.num ∧ r.oldIndex i = some c ∧ r.newIndex c = some i ∧ r.store.pts i = P.pts c) ∧
      (∀ c, c < P.num → f c < P.num ∧ r.newIndex c = some (f c) ∧ r.oldIndex (f c) = some c ∧
        r.links.left (f c) = f (ln.left c) ∧ r.links.right (f c) = f (ln.right c)) ∧
      (∃ o, ln.origin = some o ∧ o < P.num ∧ r.links.origin = some (f o)) ∧
      TreeOK r.store r.links (t.map f) ∧ (t.map f).idx.Perm (List.range P.num) := by
  rcases h.root with ⟨_, h1⟩ | ⟨o, ho, hrep⟩
  · exact absurd h1 hne
  have hlen : t.pre.length = P.num := by
    rw [t.pre_perm.length_eq, hp.length_eq, List.length_range]
  have hnd : t.pre.Nodup := t.pre_perm.nodup_iff.2 h.nodup
  have hmem : ∀ c, c ∈ t.pre ↔ c < P.num := fun c => by rw [t.pre_perm.mem_iff, hp.mem_iff, List.mem_range]
  have e1 := nodesOrder_spec (n := P.num) P.num t o 0 (fun _ => none) hrep h.valid (by rw [← t.pre_perm.length_eq, hlen]) (by omega)
  set ord := writeAt (fun _ => none) 0 t.pre with hord
  have hordk : ∀ k, k < t.pre.length → ord k = t.pre[k]? := by
    intro k hk; simp only [hord, writeAt]; rw [if_pos (by omega)]; simp
  obtain ⟨nw, e2, hnw⟩ := invertLoop_spec (n := P.num) hnd (fun c hc => (hmem c).1 hc) hordk P.num (by omega)
  set f : Nat → Nat := fun c => t.pre.idxOf c with hf
  have hfl : ∀ c, c < P.num → f c < P.num := by
    intro c hc; have := List.idxOf_lt_length_iff.2 ((hmem c).2 hc); simp only [hf]; omega
  have hget : ∀ c (hc : c < P.num), t.pre[f c]'(by have := hfl c hc; omega) = c := by
    intro c hc; simp only [hf]; exact List.getElem_idxOf _
  have hnwc : ∀ c, c < P.num → nw c = some (f c) := by
    intro c hc
    have := hnw (f c) (hfl c hc)
    rwa [hget c hc] at this
  have hordf : ∀ c, c < P.num → ord (f c) = some c := by
    intro c hc
    have h1 := hfl c hc
    rw [hordk _ (by omega), List.getElem?_eq_getElem (by omega), hget c hc]
  have hordi : ∀ i, i < P.num → ∃ c, c < P.num ∧ ord i = some c ∧ f c = i := by
    intro i hi
    have hi' : i < t.pre.length := by omega
    refine ⟨t.pre[i], (hmem _).1 (List.getElem_mem hi'), ?_, ?_⟩
    · rw [hordk i hi', List.getElem?_eq_getElem hi']
    · have h1 := hnw i hi
      rw [hnwc _ ((hmem _).1 (List.getElem_mem hi'))] at h1
      exact Option.some.inj h1
  have hinj : ∀ a, a < P.num → ∀ b, b < P.num → f a = f b → a = b := by
    intro a ha b hb he
    have h1 := hordf a ha
    rw [he, hordf b hb] at h1
    exact (Option.some.inj h1).symm
  have hidx : ∀ k, k ∈ t.idx ↔ k < P.num := fun k => by rw [hp.mem_iff, List.mem_range]
  have hch : ∀ k, k < P.num → ln.left k < P.num ∧ ln.right k < P.num := by
    intro k hk
    have := hrep.children k ((hidx k).2 hk)
    exact ⟨(hidx _).1 this.1, (hidx _).1 this.2⟩
  -- fills
  have hold : ∃ old : Nat → Nat, ∀ i, i < P.num → old i < P.num ∧ ord i = some (old i) ∧ f (old i) = i := by
    classical
    refine ⟨fun i => if hi : i < P.num then (hordi i hi).choose else 0, fun i hi => ?_⟩
    simp only [hi, dif_pos]; exact (hordi i hi).choose_spec
  obtain ⟨old, hold⟩ := hold
  obtain ⟨pts, e3, hpts⟩ := fillLoop_spec (f := fun i => (ord i).bind fun c => if c < P.num then some (P.pts c) else none)
    (g := fun i => P.pts (old i)) P.pts P.num (by
      intro i hi
      obtain ⟨a, b, _⟩ := hold i hi
      simp [b, a])
  obtain ⟨ll, e4, hll⟩ := fillLoop_spec (f := fun i => (ord i).bind fun c => if c < P.num ∧ ln.left c < P.num then nw (ln.left c) else none)
    (g := fun i => f (ln.left (old i))) ln.left P.num (by
      intro i hi
      obtain ⟨a, b, _⟩ := hold i hi
      simp [b, a, (hch _ a).1, hnwc _ (hch _ a).1])
  obtain ⟨rr, e5, hrr⟩ := fillLoop_spec (f := fun i => (ord i).bind fun c => if c < P.num ∧ ln.right c < P.num then nw (ln.right c) else none)
    (g := fun i => f (ln.right (old i))) ln.right P.num (by
      intro i hi
      obtain ⟨a, b, _⟩ := hold i hi
      simp [b, a, (hch _ a).2, hnwc _ (hch _ a).2])
  have ho' : o < P.num := h.valid o hrep.mem
  have holdf : ∀ c, c < P.num → old (f c) = c := by
    intro c hc
    have := (hold (f c) (hfl c hc)).2.1
    rw [hordf c hc] at this
    exact (Option.some.inj this).symm
  have hl' : ∀ c, c < P.num → ll (f c) = f (ln.left c) ∧ rr (f c) = f (ln.right c) := by
    intro c hc
    rw [hll _ (hfl c hc), hrr _ (hfl c hc), holdf c hc]; exact ⟨rfl, rfl⟩
  have hperm : (t.map f).idx.Perm (List.range P.num) := by
    rw [KT.map_idx]
    have hnd' : (t.idx.map f).Nodup := by
      refine List.Nodup.map_on ?_ h.nodup
      intro a ha b hb; exact hinj a ((hidx a).1 ha) b ((hidx b).1 hb)
    refine List.Subperm.perm_of_length_le (List.subperm_of_subset hnd' ?_) ?_
    · intro k hk
      obtain ⟨c, hc, rfl⟩ := List.mem_map.1 hk
      exact List.mem_range.2 (hfl c ((hidx c).1 hc))
    · rw [List.length_map, hp.length_eq]
  refine ⟨{ store := { P with pts := pts }, links := { left := ll, right := rr, origin := some (f o), height := ln.height }, oldIndex := ord, newIndex := nw },
    f, ?_, rfl, rfl, rfl, ?_, ?_, ⟨o, ho, ho', rfl⟩, ?_, hperm⟩
  · simp only [reEnumerate, ho, e1, e2, e3, e4, e5, hnwc o ho']
  · intro i hi
    obtain ⟨a, b, c⟩ := hold i hi
    refine ⟨old i, a, b, ?_, hpts i hi⟩
    simp only [hnwc _ a, c]
  · intro c hc
    exact ⟨hfl c hc, hnwc c hc, hordf c hc, hl' c hc⟩
  · refine ⟨Or.inr ⟨f o, rfl, ?_⟩, ?_, ?_, ?_, ?_⟩
    · exact hrep.map (fun a ha b hb => hinj a ((hidx a).1 ha) b ((hidx b).1 hb)) (fun k hk => hl' k ((hidx k).1 hk))
    · exact hperm.nodup_iff.2 List.nodup_range
    · intro k hk; exact List.mem_range.1 (hperm.mem_iff.1 hk)
    · intro k hk hn; exact absurd (hperm.mem_iff.2 (List.mem_range.2 hk)) hn
    · refine Ordered.map (P := P) (Q := { P with pts := pts }) rfl rfl h.ordered ?_
      intro k hk
      have hk' := (hidx k).1 hk
      show pts (f k) = P.pts k
      rw [hpts _ (hfl k hk'), holdf k hk']

end VoroCrust
