import Verif.Lemmas.Match

/-! # The assignment graph of match.cc: classification, size, simplicity, perfect matching -/

namespace EdgeEval

/-- The kinds of rows of `igraph`. -/
inductive EdgeKind (n1 n2 ow : Nat) (edges : List MEdge) (e : GEdge) : Prop
  | real (me : MEdge) (h : me ∈ edges) (he : e = ⟨me.i, me.j, (rint100 me.d2 : Nat)⟩)
  | out1 (i j : Nat) (hi : i < n1) (hj : j < n1) (hne : i ≠ j) (he : e = ⟨i, n2 + j, ow⟩)
  | out2 (i j : Nat) (hi : i < n2) (hj : j < n2) (hne : i ≠ j) (he : e = ⟨n1 + i, j, ow⟩)
  | oo (i j : Nat) (hi : i < n2) (hj : j < n1) (he : e = ⟨n1 + i, n2 + j, ow⟩)
  | ov1 (i : Nat) (hi : i < n1) (he : e = ⟨i, n2 + i, (ow * multiplier : Nat)⟩)
  | ov2 (i : Nat) (hi : i < n2) (he : e = ⟨n1 + i, i, (ow * multiplier : Nat)⟩)

theorem skip_lt {i j n : Nat} (hi : i < n) (hj : j < n - 1) :
    (if j ≥ i then j + 1 else j) < n ∧ (if j ≥ i then j + 1 else j) ≠ i := by
  split <;> omega

theorem skip_inj {i j j' : Nat}
    (h : (if j ≥ i then j + 1 else j) = (if j' ≥ i then j' + 1 else j')) : j = j' := by
  split at h <;> split at h <;> omega

theorem deg1_le (n : Nat) : deg1 n ≤ n - 1 := by unfold deg1; omega
theorem deg3_le (n1 n2 : Nat) : deg3 n1 n2 ≤ min n1 n2 := by unfold deg3; omega

section rows
variable {n1 n2 ow : Nat} {rows : List (List Nat)}

theorem outlier1_kind {k : Nat} (edges) (hr : GoodRows k (n1 - 1) n1 rows) {e : GEdge}
    (he : e ∈ outlier1 n2 ow rows) :
    ∃ i j, i < n1 ∧ j < n1 ∧ i ≠ j ∧ e = ⟨i, n2 + j, ow⟩ ∧ EdgeKind n1 n2 ow edges e := by
  obtain ⟨i, j, hi, hj, _, rfl⟩ := mem_rows hr (fun i j => (⟨i, n2 + (if j ≥ i then j + 1 else j), ow⟩ : GEdge)) he
  have := skip_lt hi hj
  exact ⟨i, _, hi, this.1, this.2.symm, rfl, .out1 i _ hi this.1 this.2.symm rfl⟩

theorem outlier2_kind {k : Nat} (edges) (hr : GoodRows k (n2 - 1) n2 rows) {e : GEdge}
    (he : e ∈ outlier2 n1 ow rows) :
    ∃ i j, i < n2 ∧ j < n2 ∧ i ≠ j ∧ e = ⟨n1 + i, j, ow⟩ ∧ EdgeKind n1 n2 ow edges e := by
  obtain ⟨j, i, hj, hi, _, rfl⟩ := mem_rows hr (fun j i => (⟨n1 + (if i ≥ j then i + 1 else i), j, ow⟩ : GEdge)) he
  have := skip_lt hj hi
  exact ⟨_, j, this.1, hj, this.2, rfl, .out2 _ j this.1 hj this.2 rfl⟩

theorem outlierOutlier_kind {k : Nat} (edges) (hr : GoodRows k (min n1 n2) (max n1 n2) rows) {e : GEdge}
    (he : e ∈ outlierOutlier n1 n2 ow rows) :
    ∃ i j, i < n2 ∧ j < n1 ∧ e = ⟨n1 + i, n2 + j, ow⟩ ∧ EdgeKind n1 n2 ow edges e := by
  obtain ⟨i, j, hi, hj, _, rfl⟩ := mem_rows hr
    (fun i j => (if n1 < n2 then ⟨n1 + i, n2 + j, ow⟩ else ⟨n1 + j, n2 + i, ow⟩ : GEdge)) he
  split
  · exact ⟨i, j, by omega, by omega, rfl, .oo i j (by omega) (by omega) rfl⟩
  · exact ⟨j, i, by omega, by omega, rfl, .oo j i (by omega) (by omega) rfl⟩

theorem overlay_kind (edges) {e : GEdge} (he : e ∈ overlay n1 n2 ow) :
    ((∃ i, i < n1 ∧ e = ⟨i, n2 + i, (ow * multiplier : Nat)⟩) ∨
      (∃ i, i < n2 ∧ e = ⟨n1 + i, i, (ow * multiplier : Nat)⟩)) ∧ EdgeKind n1 n2 ow edges e := by
  unfold overlay at he
  simp only [List.mem_append, List.mem_map, List.mem_range] at he
  rcases he with ⟨i, hi, rfl⟩ | ⟨i, hi, rfl⟩
  · exact ⟨.inl ⟨i, hi, rfl⟩, .ov1 i hi rfl⟩
  · exact ⟨.inr ⟨i, hi, rfl⟩, .ov2 i hi rfl⟩

end rows

/-- The row lists used by `buildGraph`. -/
theorem buildGraph_rows (n1 n2 ow : Nat) (edges : List MEdge) (xs : Nat → ℚ) (pos : Nat)
    (hx : Props.UnitStream xs) :
    ∃ r1 r2 r3, GoodRows (deg1 n1) (n1 - 1) n1 r1 ∧ GoodRows (deg1 n2) (n2 - 1) n2 r2 ∧
      GoodRows (deg3 n1 n2) (min n1 n2) (max n1 n2) r3 ∧
      buildGraph n1 n2 ow edges xs pos =
        (edges.map fun e => (⟨e.i, e.j, (rint100 e.d2 : Nat)⟩ : GEdge)) ++ outlier1 n2 ow r1 ++
          outlier2 n1 ow r2 ++ outlierOutlier n1 n2 ow r3 ++ overlay n1 n2 ow :=
  ⟨_, _, _, kRows_ok _ _ xs hx (deg1_le n1) _ _, kRows_ok _ _ xs hx (deg1_le n2) _ _,
    kRows_ok _ _ xs hx (deg3_le n1 n2) _ _, rfl⟩

theorem buildGraph_kind {n1 n2 ow : Nat} {edges : List MEdge} {xs : Nat → ℚ} {pos : Nat}
    (hx : Props.UnitStream xs) {e : GEdge} (he : e ∈ buildGraph n1 n2 ow edges xs pos) :
    EdgeKind n1 n2 ow edges e := by
  obtain ⟨r1, r2, r3, h1, h2, h3, heq⟩ := buildGraph_rows n1 n2 ow edges xs pos hx
  rw [heq] at he
  simp only [List.mem_append] at he
  rcases he with (((he | he) | he) | he) | he
  · obtain ⟨me, hme, rfl⟩ := List.mem_map.mp he
    exact .real me hme rfl
  · obtain ⟨_, _, _, _, _, _, h⟩ := outlier1_kind edges h1 he; exact h
  · obtain ⟨_, _, _, _, _, _, h⟩ := outlier2_kind edges h2 he; exact h
  · obtain ⟨_, _, _, _, _, h⟩ := outlierOutlier_kind edges h3 he; exact h
  · exact (overlay_kind edges he).2

theorem buildGraph_length (n1 n2 ow : Nat) (edges : List MEdge) (xs : Nat → ℚ) (pos : Nat)
    (hx : Props.UnitStream xs) :
    (buildGraph n1 n2 ow edges xs pos).length = announcedM n1 n2 edges.length := by
  obtain ⟨r1, r2, r3, h1, h2, h3, heq⟩ := buildGraph_rows n1 n2 ow edges xs pos hx
  rw [heq]
  simp only [List.length_append, List.length_map]
  unfold outlier1 outlier2 outlierOutlier overlay
  rw [length_rows h1, length_rows h2, length_rows h3 (fun i j => (if n1 < n2 then ⟨n1 + i, n2 + j, ow⟩ else ⟨n1 + j, n2 + i, ow⟩ : GEdge))]
  simp only [List.length_append, List.length_map, List.length_range]
  unfold announcedM
  ring

theorem nodup_pairs_append {l1 l2 : List GEdge} {f : GEdge → Nat × Nat} (h1 : (l1.map f).Nodup)
    (h2 : (l2.map f).Nodup) (hd : ∀ a ∈ l1, ∀ b ∈ l2, f a ≠ f b) : ((l1 ++ l2).map f).Nodup := by
  rw [List.map_append, List.nodup_append]
  refine ⟨h1, h2, ?_⟩
  intro a ha b hb
  obtain ⟨a', ha', rfl⟩ := List.mem_map.mp ha
  obtain ⟨b', hb', rfl⟩ := List.mem_map.mp hb
  exact hd a' ha' b' hb'

theorem buildGraph_nodup {n1 n2 ow : Nat} {edges : List MEdge} {xs : Nat → ℚ} {pos : Nat}
    (hx : Props.UnitStream xs) (hr : ∀ e ∈ edges, e.i < n1 ∧ e.j < n2)
    (hn : (edges.map fun e => (e.i, e.j)).Nodup) :
    ((buildGraph n1 n2 ow edges xs pos).map fun e => (e.i, e.j)).Nodup := by
  obtain ⟨r1, r2, r3, h1, h2, h3, heq⟩ := buildGraph_rows n1 n2 ow edges xs pos hx
  rw [heq]
  have k0 : ∀ a ∈ (edges.map fun e => (⟨e.i, e.j, (rint100 e.d2 : Nat)⟩ : GEdge)), a.i < n1 ∧ a.j < n2 := by
    intro a ha
    obtain ⟨e, he, rfl⟩ := List.mem_map.mp ha
    exact hr e he
  have k1 : ∀ a ∈ outlier1 n2 ow r1, a.i < n1 ∧ n2 ≤ a.j ∧ a.j ≠ n2 + a.i := by
    intro a ha
    obtain ⟨i, j, hi, hj, hne, rfl, _⟩ := outlier1_kind edges h1 ha
    simp only; omega
  have k2 : ∀ a ∈ outlier2 n1 ow r2, n1 ≤ a.i ∧ a.j < n2 ∧ a.i ≠ n1 + a.j := by
    intro a ha
    obtain ⟨i, j, hi, hj, hne, rfl, _⟩ := outlier2_kind edges h2 ha
    simp only; omega
  have k3 : ∀ a ∈ outlierOutlier n1 n2 ow r3, n1 ≤ a.i ∧ n2 ≤ a.j := by
    intro a ha
    obtain ⟨i, j, hi, hj, rfl, _⟩ := outlierOutlier_kind edges h3 ha
    simp only; omega
  have k4 : ∀ a ∈ overlay n1 n2 ow, (a.i < n1 ∧ a.j = n2 + a.i) ∨ (n1 ≤ a.i ∧ a.i = n1 + a.j ∧ a.j < n2) := by
    intro a ha
    rcases (overlay_kind edges ha).1 with ⟨i, hi, rfl⟩ | ⟨i, hi, rfl⟩
    · left; exact ⟨hi, rfl⟩
    · right; exact ⟨Nat.le_add_right _ _, rfl, hi⟩
  have d0 : ((edges.map fun e => (⟨e.i, e.j, (rint100 e.d2 : Nat)⟩ : GEdge)).map fun e => (e.i, e.j)).Nodup := by
    rw [List.map_map]; exact hn
  have d1 : ((outlier1 n2 ow r1).map fun e => (e.i, e.j)).Nodup := by
    unfold outlier1
    rw [List.map_flatMap]
    simp only [List.map_map]
    apply nodup_rows h1 (fun i j => (i, n2 + (if j ≥ i then j + 1 else j)))
    intro i j i' j' h
    simp only [Prod.mk.injEq] at h
    obtain ⟨rfl, h⟩ := h
    exact ⟨rfl, skip_inj (Nat.add_left_cancel h)⟩
  have d2 : ((outlier2 n1 ow r2).map fun e => (e.i, e.j)).Nodup := by
    unfold outlier2
    rw [List.map_flatMap]
    simp only [List.map_map]
    apply nodup_rows h2 (fun j i => (n1 + (if i ≥ j then i + 1 else i), j))
    intro i j i' j' h
    simp only [Prod.mk.injEq] at h
    obtain ⟨h, rfl⟩ := h
    exact ⟨rfl, skip_inj (Nat.add_left_cancel h)⟩
  have d3 : ((outlierOutlier n1 n2 ow r3).map fun e => (e.i, e.j)).Nodup := by
    unfold outlierOutlier
    rw [List.map_flatMap]
    simp only [List.map_map]
    apply nodup_rows h3 (fun i => (fun e : GEdge => (e.i, e.j)) ∘ fun j => (if n1 < n2 then ⟨n1 + i, n2 + j, ow⟩ else ⟨n1 + j, n2 + i, ow⟩ : GEdge))
    intro i j i' j' h
    simp only [Function.comp_apply] at h
    split at h <;> simp only [Prod.mk.injEq] at h <;> omega
  have d4 : ((overlay n1 n2 ow).map fun e => (e.i, e.j)).Nodup := by
    unfold overlay
    apply nodup_pairs_append
    · rw [List.map_map]
      exact List.nodup_range.map (fun a b h => by simpa using h)
    · rw [List.map_map]
      exact List.nodup_range.map (fun a b h => by simpa using h)
    · intro a ha b hb h
      obtain ⟨i, hi, rfl⟩ := List.mem_map.mp ha
      obtain ⟨j, hj, rfl⟩ := List.mem_map.mp hb
      simp only [Prod.mk.injEq] at h
      have := List.mem_range.mp hi
      omega
  refine nodup_pairs_append (nodup_pairs_append (nodup_pairs_append (nodup_pairs_append d0 d1 ?_) d2 ?_) d3 ?_) d4 ?_
  · intro a ha b hb h
    simp only [Prod.mk.injEq] at h
    have := k0 a ha; have := k1 b hb; omega
  · intro a ha b hb h
    simp only [Prod.mk.injEq] at h
    have := k2 b hb
    rcases List.mem_append.mp ha with ha | ha
    · have := k0 a ha; omega
    · have := k1 a ha; omega
  · intro a ha b hb h
    simp only [Prod.mk.injEq] at h
    have := k3 b hb
    simp only [List.mem_append] at ha
    rcases ha with (ha | ha) | ha
    · have := k0 a ha; omega
    · have := k1 a ha; omega
    · have := k2 a ha; omega
  · intro a ha b hb h
    simp only [Prod.mk.injEq] at h
    have := k4 b hb
    simp only [List.mem_append] at ha
    rcases ha with ((ha | ha) | ha) | ha
    · have := k0 a ha; omega
    · have := k1 a ha; omega
    · have := k2 a ha; omega
    · have := k3 a ha; omega

theorem EdgeKind.range {n1 n2 ow : Nat} {edges : List MEdge} (hr : ∀ e ∈ edges, e.i < n1 ∧ e.j < n2)
    {e : GEdge} (h : EdgeKind n1 n2 ow edges e) : e.i < n1 + n2 ∧ e.j < n1 + n2 ∧ 0 ≤ e.c := by
  cases h with
  | real me h he => subst he; have := hr me h; simp only; omega
  | out1 i j hi hj hne he => subst he; simp only; omega
  | out2 i j hi hj hne he => subst he; simp only; omega
  | oo i j hi hj he => subst he; simp only; omega
  | ov1 i hi he => subst he; simp only; omega
  | ov2 i hi he => subst he; simp only; omega

/-- A solution edge between real nodes comes from a real edge. -/
theorem EdgeKind.real_of_lt {n1 n2 ow : Nat} {edges : List MEdge}
    {e : GEdge} (h : EdgeKind n1 n2 ow edges e) (h1 : e.i < n1) (h2 : e.j < n2) :
    ∃ me ∈ edges, e = ⟨me.i, me.j, (rint100 me.d2 : Nat)⟩ := by
  cases h with
  | real me h he => exact ⟨me, h, he⟩
  | out1 i j hi hj hne he => subst he; simp only at h2; omega
  | out2 i j hi hj hne he => subst he; simp only at h1; omega
  | oo i j hi hj he => subst he; simp only at h1; omega
  | ov1 i hi he => subst he; simp only at h2; omega
  | ov2 i hi he => subst he; simp only at h1; omega

theorem wellFormed_graph {n : Nat} {g : List GEdge} (h : ∀ e ∈ g, e.i < n ∧ e.j < n) :
    WellFormedGraph n (g.map (toArc n)) := by
  intro a ha
  obtain ⟨e, he, rfl⟩ := List.mem_map.mp ha
  have := h e he
  simp only [toArc]; omega

theorem overlay_perfect (n1 n2 ow : Nat) (g : List GEdge) (hsub : ∀ e ∈ overlay n1 n2 ow, e ∈ g) :
    IsPerfectMatching (n1 + n2) (g.map (toArc (n1 + n2))) ((overlay n1 n2 ow).map (toArc (n1 + n2))) := by
  refine ⟨?_, ?_, ?_⟩
  · intro a ha
    obtain ⟨e, he, rfl⟩ := List.mem_map.mp ha
    exact List.mem_map_of_mem (hsub e he)
  · have : ((overlay n1 n2 ow).map (toArc (n1 + n2))).map InArc.tail = List.range' 1 (n1 + n2) := by
      unfold overlay
      simp only [List.map_append, List.map_map]
      rw [← List.range'_append_1 (s := 1) (m := n1) (n := n2)]
      congr 1
      · rw [List.range'_eq_map_range]
        apply List.map_congr_left; intro a _; simp [toArc]; omega
      · rw [List.range'_eq_map_range]
        apply List.map_congr_left; intro a _; simp [toArc]; omega
    rw [this]
  · have : ((overlay n1 n2 ow).map (toArc (n1 + n2))).map InArc.head =
        List.range' (n1 + n2 + 1 + n2) n1 ++ List.range' (n1 + n2 + 1) n2 := by
      unfold overlay
      simp only [List.map_append, List.map_map]
      congr 1
      · rw [List.range'_eq_map_range]
        apply List.map_congr_left; intro a _; simp [toArc]; omega
      · rw [List.range'_eq_map_range]
        apply List.map_congr_left; intro a _; simp [toArc]; omega
    rw [this, Nat.add_comm n1 n2, ← List.range'_append_1 (s := n2 + n1 + 1) (m := n2) (n := n1)]
    exact List.perm_append_comm

theorem overlay_sub (n1 n2 ow : Nat) (edges : List MEdge) (xs : Nat → ℚ) (pos : Nat) :
    ∀ e ∈ overlay n1 n2 ow, e ∈ buildGraph n1 n2 ow edges xs pos := by
  intro e he
  unfold buildGraph
  simp only [List.mem_append]
  exact .inr he

end EdgeEval
