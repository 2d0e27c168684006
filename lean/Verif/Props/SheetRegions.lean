import Verif.Props.SheetAngles

/-! # C85: regions on models with sharp features -/

namespace VoroCrust

open Classical

/-- What is needed around an edge sphere: its triangles form sheets between edge or corner spheres, at different angles outside the tolerance. -/
structure EdgeOk (F : FanEnv) (ns i : Nat) : Prop where
  feature : ∃ nb v, ns ≤ nb ∧ FanLinked F i nb v
  sheaf : ∀ nb v, ns ≤ nb → FanLinked F i nb v → Sheaf F ns i nb
  clear : ∀ nb j0 j, ns ≤ nb → FanLinked F i nb j0 → FanLinked F i nb j → ClearPoint (sheetX F i nb j0 j) (sheetY F i nb j0 j)
  angles : ∀ nb j0 j k θ, ns ≤ nb → FanLinked F i nb j0 → FanLinked F i nb j → FanLinked F i nb k → SheetAngle F i nb j0 j θ → SheetAngle F i nb j0 k θ → j = k

/-- Seeds that neighbour each other: on the same side of neighbouring triangles around a surface sphere, or in the same sector around an edge sphere. -/
def JoinStep (F : FanEnv) (ns ne : Nat) (nb : Nat → Nat) (α : Nat → Nat → ℝ) (s t : Nat) : Prop :=
  ∃ i, (i < ns ∧ TurnStep F i s t) ∨ (ns ≤ i ∧ i < ns + ne ∧ SameSector F ns i (nb i) (α i) s t)

/-- `nb`, `j0` and `α` describe the sheets around the edge sphere `i`. -/
def SheetFrame (F : FanEnv) (ns i nb j0 : Nat) (α : Nat → ℝ) : Prop := ns ≤ nb ∧ FanLinked F i nb j0 ∧ ∀ j, FanLinked F i nb j → SheetAngle F i nb j0 j (α j)

theorem SameSector.symm {β : Type} [LinearOrder β] {F : FanEnv} {ns i nb : Nat} {θ : Nat → β} {s t : Nat} (h : SameSector F ns i nb θ s t) : SameSector F ns i nb θ t s := by
  rcases h with ⟨j, ⟨a, b⟩ | ⟨a, b⟩⟩ | ⟨j, k, hn, ⟨a, b⟩ | ⟨a, b⟩⟩
  · exact Or.inl ⟨j, Or.inl ⟨b, a⟩⟩
  · exact Or.inl ⟨j, Or.inr ⟨b, a⟩⟩
  · exact Or.inr ⟨j, k, hn, Or.inr ⟨b, a⟩⟩
  · exact Or.inr ⟨j, k, hn, Or.inl ⟨b, a⟩⟩

theorem SheetBelow.around {F : FanEnv} {ns i nb j s : Nat} (h : SheetBelow F ns i nb j s) : ∃ u v, Spokes F i s u v := by
  obtain ⟨u, w, p, -, h, -⟩ := h; exact ⟨u, w, h⟩

theorem SheetAbove.around {F : FanEnv} {ns i nb j s : Nat} (h : SheetAbove F ns i nb j s) : ∃ u v, Spokes F i s u v := by
  obtain ⟨u, w, p, -, h, -⟩ := h; exact ⟨u, w, h⟩

theorem SameSector.around {β : Type} [LinearOrder β] {F : FanEnv} {ns i nb : Nat} {θ : Nat → β} {s t : Nat} (h : SameSector F ns i nb θ s t) : ∃ u v, Spokes F i s u v := by
  rcases h with ⟨j, ⟨a, b⟩ | ⟨a, b⟩⟩ | ⟨j, k, hn, ⟨a, b⟩ | ⟨a, b⟩⟩ <;> exact a.around

theorem colourSphere_edge {F : FanEnv} {ns cap capS : Nat} {G : Graph} (hP : PairedSeeds F) (hcap : F.attr.length ≤ cap) {i : Nat} (hi : ns ≤ i)
    (hG : GraphOk capS G fun i s => ∃ u v, Spokes F i s u v) (hGr : G.rows ≠ none) (hiS : i < capS) (hE : (∃ s u v, Spokes F i s u v) → EdgeOk F ns i) :
    ∃ nb j0 α, ((∃ s u v, Spokes F i s u v) → SheetFrame F ns i nb j0 α) ∧
      ∀ (g : Graph) (R : Nat → Nat → Prop), GraphOk cap g R → ∃ g', colourSphere F ns cap G i (fun _ => 0) g = some (fun _ => 0, g') ∧
        GraphOk cap g' fun s t => R s t ∨ (s ≠ t ∧ SameSector F ns i nb α s t) := by
  rcases neighbors_ok hG hGr hiS with ⟨e, hno⟩ | ⟨l, e, hl, hn, hmem⟩
  · refine ⟨0, 0, fun _ => 0, fun ⟨s, h⟩ => absurd h (hno s), fun g R hg => ⟨g, by unfold colourSphere; rw [e], hg.congr fun a b => ?_⟩⟩
    exact ⟨Or.inl, fun x => x.elim id fun y => absurd y.2.around (hno a)⟩
  · have hPA := hP.pairsAround hn hmem
    have hsome : ∃ s u v, Spokes F i s u v := by
      obtain ⟨s, hs⟩ := List.exists_mem_of_ne_nil l hl
      exact ⟨s, (hmem s).1 hs⟩
    have hok := hE hsome
    obtain ⟨nb, j0, α, c', hf, h0, hα, e1, hs, ho⟩ := C85_sectors_partial F ns i l hPA hok.feature hok.sheaf hok.clear hok.angles fun _ => 0
    have hlt : ∀ s ∈ l, s < F.attr.length := fun s hs => by
      obtain ⟨u, v, a, ea, -⟩ := (hmem s).1 hs
      exact (List.getElem?_eq_some_iff.1 ea).1
    refine ⟨nb, j0, α, fun _ => ⟨hf, h0, hα⟩, fun g R hg => ?_⟩
    obtain ⟨g', e2, hg', -⟩ := joinEqual_spec c' hcap l g R hg hlt hn
    refine ⟨g', ?_, hg'.congr fun a b => ?_⟩
    · unfold colourSphere
      rw [e]
      simp only [if_neg (show ¬ i < ns by omega), e1, e2, clearMarks_spec l c' hlt]
      congr 2
      funext x
      by_cases hx : x ∈ l
      · simp only [if_pos hx]
      · simp only [if_neg hx]; rw [ho x hx]
    · constructor
      · rintro (h | ⟨x, y, z, w⟩)
        · exact Or.inl h
        · exact Or.inr ⟨z, (hs a x b y).1 w⟩
      · rintro (h | ⟨y, z⟩)
        · exact Or.inl h
        · exact Or.inr ⟨(hmem a).2 z.around, (hmem b).2 z.symm.around, y, (hs a ((hmem a).2 z.around) b ((hmem b).2 z.symm.around)).2 z⟩

/-- **C85, regions.** On a model with sharp features, with one closed fan of triangles around every surface sphere and sheets of triangles at different angles around every edge sphere: the
marks and connections are computed without undefined behaviour, and the colouring puts two seeds into the same region exactly if a chain leads from one to the other whose
steps stay on one side of neighbouring triangles around a surface sphere, or in one sector around an edge sphere; the exterior seed gets region 0. -/
theorem C85_regions_partial (F : FanEnv) (ns ne nt capS cap k k' : Nat) (hP : PairedSeeds F) (hnt : ns + ne ≤ nt) (hS : nt ≤ capS) (hcap : F.attr.length ≤ cap)
    (hns : ∀ a ∈ F.attr, a.s1 < nt ∧ a.s2 < nt ∧ a.s3 < nt) (hsome : ∃ a ∈ F.attr, a.s1 < ns) (h2 : ∀ i, i < ns → ∀ w, TwoTriangles F i w) (h1 : ∀ i, i < ns → OneFan F i)
    (hE : ∀ i, ns ≤ i → i < ns + ne → (∃ s u v, Spokes F i s u v) → EdgeOk F ns i) (e : Nat) (he : e < F.attr.length) :
    ∃ (nb j0 : Nat → Nat) (α : Nat → Nat → ℝ) (G : Graph) (c : Nat → Nat) (g : Graph) (reg : Nat → Nat) (nr : Nat), (∀ i, ns ≤ i → i < ns + ne → (∃ s u v, Spokes F i s u v) → SheetFrame F ns i (nb i) (j0 i) (α i)) ∧
      linkSpheres nt capS F.attr 0 { rows := none, cap := k } = some G ∧
      colourSpheres F ns cap G (ns + ne) (fun _ => 0) { rows := none, cap := k' } = some (c, g) ∧
      (∀ s t, t ∈ storedNeighbors g s ↔ s ≠ t ∧ ∃ i, (i < ns ∧ (∃ u v, Spokes F i s u v) ∧ SameSide F i s t) ∨ (ns ≤ i ∧ i < ns + ne ∧ SameSector F ns i (nb i) (α i) s t)) ∧
      colourSeeds g F.attr.length e = some (reg, nr) ∧ reg e = 0 ∧
      ∀ s t, s < F.attr.length → t < F.attr.length → (reg s = reg t ↔ Relation.ReflTransGen (JoinStep F ns ne nb α) s t) := by
  obtain ⟨a0, ha0, ha0s⟩ := hsome
  have hne : F.attr ≠ [] := List.ne_nil_of_mem ha0
  obtain ⟨G, eG, hG, hGr⟩ := linkSpheres_spec hS F.attr 0 _ _ (emptyGraph_ok capS k) hns
  have hG' : GraphOk capS G fun i s => ∃ u v, Spokes F i s u v := hG.congr fun i s => by
    rw [spokes_iff_mem]
    constructor
    · rintro (h | ⟨m, a, x, y, z⟩)
      · exact h.elim
      · exact ⟨a, by rw [y, Nat.zero_add]; exact x, z⟩
    · rintro ⟨a, x, z⟩
      exact Or.inr ⟨s, a, x, by omega, z⟩
  have hGr := hGr (Or.inr hne)
  have hedge : ∀ i, ∃ nb j0 α, ns ≤ i → i < ns + ne → ((∃ s u v, Spokes F i s u v) → SheetFrame F ns i nb j0 α) ∧
      ∀ (g : Graph) (R : Nat → Nat → Prop), GraphOk cap g R → ∃ g', colourSphere F ns cap G i (fun _ => 0) g = some (fun _ => 0, g') ∧
        GraphOk cap g' fun s t => R s t ∨ (s ≠ t ∧ SameSector F ns i nb α s t) := by
    intro i
    by_cases hi : ns ≤ i ∧ i < ns + ne
    · obtain ⟨nb, j0, α, h⟩ := colourSphere_edge hP hcap hi.1 hG' hGr (by omega) (hE i hi.1 hi.2)
      exact ⟨nb, j0, α, fun _ _ => h⟩
    · exact ⟨0, 0, fun _ => 0, fun a b => absurd ⟨a, b⟩ hi⟩
  choose nb j0 α hedge using hedge
  obtain ⟨c0, g0, ec0, hc0, hg0⟩ := colourSpheres_fans hP hcap hG' hGr (by omega : ns ≤ capS) h2 h1 k' ns le_rfl
  have hc0 : c0 = fun _ => 0 := funext hc0
  subst hc0
  have hloop : ∀ m, m ≤ ne → ∃ g, colourSpheres F ns cap G (ns + m) (fun _ => 0) { rows := none, cap := k' } = some (fun _ => 0, g) ∧
      GraphOk cap g fun s t => s ≠ t ∧ ∃ i, (i < ns ∧ (∃ u v, Spokes F i s u v) ∧ SameSide F i s t) ∨ (ns ≤ i ∧ i < ns + m ∧ SameSector F ns i (nb i) (α i) s t) := by
    intro m
    induction m with
    | zero =>
      intro _
      refine ⟨g0, ec0, hg0.congr fun a b => ?_⟩
      constructor
      · rintro ⟨i, x, y, z, w⟩; exact ⟨z, i, Or.inl ⟨x, y, w⟩⟩
      · rintro ⟨z, i, ⟨x, y, w⟩ | ⟨x, y, -⟩⟩
        · exact ⟨i, x, y, z, w⟩
        · omega
    | succ m ih =>
      intro hm
      obtain ⟨g, eg, hg⟩ := ih (by omega)
      obtain ⟨g', eg', hg'⟩ := (hedge (ns + m) (by omega) (by omega)).2 g _ hg
      refine ⟨g', by rw [← Nat.add_assoc, colourSpheres, eg]; exact eg', hg'.congr fun a b => ?_⟩
      constructor
      · rintro (⟨x, i, y | ⟨y, z, w⟩⟩ | ⟨x, y⟩)
        · exact ⟨x, i, Or.inl y⟩
        · exact ⟨x, i, Or.inr ⟨y, by omega, w⟩⟩
        · exact ⟨x, ns + m, Or.inr ⟨by omega, by omega, y⟩⟩
      · rintro ⟨x, i, y | ⟨y, z, w⟩⟩
        · exact Or.inl ⟨x, i, Or.inl y⟩
        · by_cases him : i = ns + m
          · subst him; exact Or.inr ⟨x, w⟩
          · exact Or.inl ⟨x, i, Or.inr ⟨y, by omega, w⟩⟩
  obtain ⟨g, eg, hg⟩ := hloop ne le_rfl
  have hrel : ∀ s t, t ∈ storedNeighbors g s ↔ s ≠ t ∧ ∃ i, (i < ns ∧ (∃ u v, Spokes F i s u v) ∧ SameSide F i s t) ∨ (ns ≤ i ∧ i < ns + ne ∧ SameSector F ns i (nb i) (α i) s t) :=
    fun s t => hg.inv.rel s t
  -- there is a connection
  have hstep : ∃ i s t, i < ns ∧ s ≠ t ∧ TurnStep F i s t := by
    obtain ⟨s, ea⟩ := List.getElem?_of_mem ha0
    have hsp : Spokes F a0.s1 s a0.s2 a0.s3 := ⟨a0, ea, .refl _⟩
    obtain ⟨v, hv, ⟨t, ht⟩, -⟩ := h2 a0.s1 ha0s a0.s3 a0.s2 ⟨s, hsp⟩
    obtain ⟨b, eb, hb⟩ := ht
    obtain ⟨h3, b', eb', h4, h5⟩ := hP.partner t b eb
    have ht' : Spokes F a0.s1 b.pair a0.s3 v := ⟨b', eb', h5.trans hb⟩
    have hB := below_partner (hP.sides t b eb a0.s1 a0.s3 v hb).2
    have hsn : ∀ {t}, Spokes F a0.s1 t a0.s3 v → s ≠ t := by
      rintro t ht rfl
      rcases hsp.det ht with ⟨x, y⟩ | ⟨x, y⟩
      · have := hP.distinct a0 (List.mem_of_getElem? ea); simp at this
        exact this.2 x.symm
      · exact hv y
    by_cases hc : (PairBelow F a0.s1 a0.s2 a0.s3 s a0.pair ↔ PairBelow F a0.s1 a0.s3 v t b.pair)
    · exact ⟨a0.s1, s, t, ha0s, hsn ⟨b, eb, hb⟩, a0.s2, a0.s3, v, a0.pair, b.pair, hv.symm, hsp, ⟨b, eb, hb⟩, ⟨a0, ea, rfl⟩, ⟨b, eb, rfl⟩, hc⟩
    · exact ⟨a0.s1, s, b.pair, ha0s, hsn ht', a0.s2, a0.s3, v, a0.pair, t, hv.symm, hsp, ht', ⟨a0, ea, rfl⟩, ⟨b', eb', h4⟩, by rw [hB]; tauto⟩
  have hlen : ∀ {i t}, (∃ u v, Spokes F i t u v) → t < F.attr.length := by
    rintro i t ⟨u, v, a, ea, -⟩
    exact (List.getElem?_eq_some_iff.1 ea).1
  have hSG : SeedGraph g F.attr.length := by
    have hrows : g.rows ≠ none := by
      intro hno
      obtain ⟨i, s, t, hi, hst, ht⟩ := hstep
      obtain ⟨u, w, v, p, q, -, hsp, -⟩ := id ht
      have := (hrel s t).2 ⟨hst, i, Or.inl ⟨hi, ⟨u, w, hsp⟩, .single ht⟩⟩
      simp [storedNeighbors, graphNeighbors, hno] at this
    refine ⟨fun s hs hno => ?_, fun s t _ ht => ?_, fun s t _ ht => ?_⟩
    · rcases neighbors_ok hg hrows (i := s) (by omega) with ⟨x, -⟩ | ⟨l, x, -⟩ <;> rw [hno] at x <;> cases x
    · obtain ⟨-, i, ⟨-, hs, hst⟩ | ⟨-, -, hst⟩⟩ := (hrel s t).1 ht
      · exact hlen (hst.around hs)
      · exact hlen hst.symm.around
    · obtain ⟨h0, i, ⟨hi, hs, hst⟩ | ⟨x, y, hst⟩⟩ := (hrel s t).1 ht
      · exact (hrel t s).2 ⟨h0.symm, i, Or.inl ⟨hi, hst.around hs, hst.symm hP⟩⟩
      · exact (hrel t s).2 ⟨h0.symm, i, Or.inr ⟨x, y, hst.symm⟩⟩
  obtain ⟨reg, nr, er, hr, hr0, -, -⟩ := C40_regions_are_components g F.attr.length hSG e he
  refine ⟨nb, j0, α, G, _, g, reg, nr, fun i x y z => (hedge i x y).1 z, eG, eg, hrel, er, hr0, fun s t hs ht => ?_⟩
  rw [hr s t hs ht]
  constructor
  · intro hj
    clear ht
    induction hj with
    | refl => exact .refl
    | tail _ hab ih =>
      refine Relation.ReflTransGen.trans ih ?_
      obtain ⟨-, i, ⟨hi, -, hst⟩ | ⟨x, y, hst⟩⟩ := (hrel _ _).1 hab
      · clear hab ih
        induction hst with
        | refl => exact .refl
        | tail _ h ih => exact ih.tail ⟨i, Or.inl ⟨hi, h⟩⟩
      · exact .single ⟨i, Or.inr ⟨x, y, hst⟩⟩
  · intro hj
    clear ht
    induction hj with
    | refl => exact .refl
    | @tail x y _ h ih =>
      obtain ⟨i, h⟩ := h
      by_cases hxy : x = y
      · rw [← hxy]; exact ih
      · rcases h with ⟨hi, h⟩ | ⟨h3, h4, h⟩
        · obtain ⟨u, w, v, p, q, -, hsp, -⟩ := id h
          exact ih.tail ((hrel x y).2 ⟨hxy, i, Or.inl ⟨hi, ⟨u, w, hsp⟩, .single h⟩⟩)
        · exact ih.tail ((hrel x y).2 ⟨hxy, i, Or.inr ⟨h3, h4, h⟩⟩)

end VoroCrust
