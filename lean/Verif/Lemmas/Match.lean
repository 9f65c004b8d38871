import Verif.Model.Match
import Verif.Props.Kofn
import Verif.Props.Csa
import Mathlib.Data.List.Nodup
import Mathlib.Data.List.Dedup

/-! # Lemmas about the matching graph of match.cc -/

namespace EdgeEval

/-! ## Square roots -/

theorem ceilSqrt_le_iff (q : ℚ) (k : Nat) : ceilSqrt q ≤ k ↔ q ≤ (k * k : Nat) := by
  unfold ceilSqrt
  have h1 : q ≤ (k * k : Nat) ↔ ⌈q⌉.toNat ≤ k * k := by
    rw [Int.toNat_le, Int.ceil_le]; push_cast; rfl
  rw [h1]
  generalize ⌈q⌉.toNat = m
  simp only
  have a := Nat.sqrt_le m
  have b := Nat.lt_succ_sqrt m
  simp only [Nat.succ_eq_add_one] at b
  split
  · rename_i h
    generalize Nat.sqrt m = s at *
    subst h
    constructor
    · intro h; exact Nat.mul_le_mul h h
    · intro h
      exact Nat.mul_self_le_mul_self_iff.mp h
  · rename_i h
    have hlt : Nat.sqrt m * Nat.sqrt m < m := by omega
    generalize Nat.sqrt m = s at *
    constructor
    · intro h
      have := Nat.mul_le_mul h h
      omega
    · intro h
      by_contra hc
      have : k ≤ s := by omega
      have := Nat.mul_le_mul this this
      omega

/-! ## Pixels and windows -/

theorem mem_pixels {h w : Nat} {p : Pix} : p ∈ pixels h w ↔ p.1 < w ∧ p.2 < h := by
  obtain ⟨x, y⟩ := p
  simp only [pixels, List.mem_flatMap, List.mem_range, List.mem_map, Prod.mk.injEq]
  constructor
  · rintro ⟨a, ha, b, hb, rfl, rfl⟩; exact ⟨ha, hb⟩
  · rintro ⟨ha, hb⟩; exact ⟨x, ha, y, hb, rfl, rfl⟩

theorem nodup_pixels (h w : Nat) : (pixels h w).Nodup := by
  unfold pixels
  rw [List.nodup_flatMap]
  refine ⟨fun x _ => ?_, ?_⟩
  · exact List.nodup_range.map (fun a b hab => by simpa using hab)
  · apply List.nodup_range.imp
    intro a b hab
    simp only [Function.onFun, List.disjoint_left, List.mem_map, List.mem_range]
    rintro _ ⟨y, _, rfl⟩ ⟨y', _, h⟩
    simp only [Prod.mk.injEq] at h
    exact hab h.1.symm

theorem mem_window {r : Nat} {uv : Int × Int} :
    uv ∈ window r ↔ uv.1.natAbs ≤ r ∧ uv.2.natAbs ≤ r := by
  obtain ⟨u, v⟩ := uv
  simp only [window, List.mem_flatMap, List.mem_range, List.mem_map, Prod.mk.injEq]
  constructor
  · rintro ⟨a, ha, b, hb, rfl, rfl⟩; omega
  · rintro ⟨ha, hb⟩
    exact ⟨(u + r).toNat, by omega, (v + r).toNat, by omega, by omega, by omega⟩

theorem nodup_window (r : Nat) : (window r).Nodup := by
  unfold window
  rw [List.nodup_flatMap]
  refine ⟨fun x _ => ?_, ?_⟩
  · refine List.nodup_range.map (fun a b hab => ?_)
    simp only [Prod.mk.injEq] at hab
    omega
  · apply List.nodup_range.imp
    intro a b hab
    simp only [Function.onFun, List.disjoint_left, List.mem_map, List.mem_range]
    rintro _ ⟨y, _, rfl⟩ ⟨y', _, h⟩
    simp only [Prod.mk.injEq] at h
    omega

theorem natAbs_sq_cast (a : Int) : ((a.natAbs ^ 2 : Nat) : Int) = a * a := by
  rw [Nat.cast_pow, Int.natCast_natAbs, sq_abs, sq]

theorem pixDist2_cast (p q : Pix) :
    (pixDist2 p q : Int) = ((p.1 : Int) - q.1) * ((p.1 : Int) - q.1) + ((p.2 : Int) - q.2) * ((p.2 : Int) - q.2) := by
  unfold pixDist2
  rw [Nat.cast_add, natAbs_sq_cast, natAbs_sq_cast]

theorem pixDist2_comm (p q : Pix) : pixDist2 p q = pixDist2 q p := by
  have : (pixDist2 p q : Int) = pixDist2 q p := by rw [pixDist2_cast, pixDist2_cast]; ring
  exact_mod_cast this

theorem pixDist2_self (p : Pix) : pixDist2 p p = 0 := by simp [pixDist2]

theorem mem_targets {h w : Nat} {md2 : ℚ} {p q : Pix} :
    q ∈ targets h w md2 p ↔ q.1 < w ∧ q.2 < h ∧ (pixDist2 p q : ℚ) ≤ md2 := by
  unfold targets
  rw [List.mem_filterMap]
  have key : ∀ u v : Int, ((u * u + v * v : Int) : ℚ) ≤ md2 → u.natAbs ≤ ceilSqrt md2 ∧ v.natAbs ≤ ceilSqrt md2 := by
    intro u v hle
    have hc : md2 ≤ (ceilSqrt md2 * ceilSqrt md2 : Nat) := (ceilSqrt_le_iff md2 _).mp (le_refl _)
    have h1 : ((u * u + v * v : Int) : ℚ) ≤ ((ceilSqrt md2 * ceilSqrt md2 : Nat) : ℚ) := hle.trans hc
    have h2 : u * u + v * v ≤ ((ceilSqrt md2 * ceilSqrt md2 : Nat) : Int) := by exact_mod_cast h1
    generalize ceilSqrt md2 = r at *
    have hu : ((u.natAbs * u.natAbs : Nat) : Int) = u * u := by
      rw [← Int.natAbs_mul_self (a := u)]
    have hv : ((v.natAbs * v.natAbs : Nat) : Int) = v * v := by
      rw [← Int.natAbs_mul_self (a := v)]
    have h3 : u.natAbs * u.natAbs + v.natAbs * v.natAbs ≤ r * r := by
      have : ((u.natAbs * u.natAbs + v.natAbs * v.natAbs : Nat) : Int) ≤ (r * r : Nat) := by
        rw [Nat.cast_add, hu, hv]; exact h2
      exact_mod_cast this
    refine ⟨Nat.mul_self_le_mul_self_iff.mp (by omega), Nat.mul_self_le_mul_self_iff.mp (by omega)⟩
  constructor
  · rintro ⟨⟨u, v⟩, hm, hf⟩
    simp only at hf
    split at hf
    · simp at hf
    split at hf
    · simp at hf
    split at hf
    · simp at hf
    rename_i h1 h2 h3
    simp only [Option.some.injEq] at hf
    subst hf
    refine ⟨by simp only; omega, by simp only; omega, ?_⟩
    have e : (pixDist2 p ((↑p.1 + u).toNat, (↑p.2 + v).toNat) : Int) = u * u + v * v := by
      rw [pixDist2_cast]
      simp only
      rw [Int.toNat_of_nonneg (by omega), Int.toNat_of_nonneg (by omega)]
      ring
    have e' : (pixDist2 p ((↑p.1 + u).toNat, (↑p.2 + v).toNat) : ℚ) = ((u * u + v * v : Int) : ℚ) := by
      rw [← e]; push_cast; rfl
    rw [e']
    exact not_lt.mp h1
  · rintro ⟨h1, h2, h3⟩
    have e : (pixDist2 p q : ℚ) = (((((q.1 : Int) - p.1) * ((q.1 : Int) - p.1) + ((q.2 : Int) - p.2) * ((q.2 : Int) - p.2) : Int)) : ℚ) := by
      have : (pixDist2 p q : Int) = ((q.1 : Int) - p.1) * ((q.1 : Int) - p.1) + ((q.2 : Int) - p.2) * ((q.2 : Int) - p.2) := by
        rw [pixDist2_cast]; ring
      rw [← this]; push_cast; rfl
    rw [e] at h3
    refine ⟨((q.1 : Int) - p.1, (q.2 : Int) - p.2), mem_window.mpr (key _ _ h3), ?_⟩
    simp only
    rw [if_neg (not_lt.mpr h3), if_neg (by omega), if_neg (by omega)]
    congr 1
    ext <;> simp only <;> omega

theorem nodup_targets (h w : Nat) (md2 : ℚ) (p : Pix) : (targets h w md2 p).Nodup := by
  unfold targets
  refine (nodup_window _).filterMap ?_
  rintro ⟨u, v⟩ ⟨u', v'⟩ b hb hb'
  simp only [Option.mem_def] at hb hb'
  split at hb
  · simp at hb
  split at hb
  · simp at hb
  split at hb
  · simp at hb
  split at hb'
  · simp at hb'
  split at hb'
  · simp at hb'
  split at hb'
  · simp at hb'
  simp only [Option.some.injEq] at hb hb'
  rw [← hb'] at hb
  simp only [Prod.mk.injEq] at hb ⊢
  omega

/-! ## Nodes -/

theorem List.getD_of_lt {α : Type} (l : List α) (d : α) {i : Nat} (hi : i < l.length) :
    l.getD i d = l[i] := by simp [List.getD, hi]

theorem mem_nodes1 {h w : Nat} {md2 : ℚ} {b1 b2 : BMap} {p : Pix} :
    p ∈ nodes1 h w md2 b1 b2 ↔ p.1 < w ∧ p.2 < h ∧ b1 p.2 p.1 = true ∧
      ∃ q : Pix, q.1 < w ∧ q.2 < h ∧ b2 q.2 q.1 = true ∧ (pixDist2 p q : ℚ) ≤ md2 := by
  unfold nodes1 matchable1
  simp only [List.mem_filter, mem_pixels, Bool.and_eq_true, List.any_eq_true, mem_targets]
  constructor
  · rintro ⟨⟨a, b⟩, c, q, ⟨d, e, f⟩, g⟩; exact ⟨a, b, c, q, d, e, g, f⟩
  · rintro ⟨a, b, c, q, d, e, g, f⟩; exact ⟨⟨a, b⟩, c, q, ⟨d, e, f⟩, g⟩

theorem matchable2_iff {h w : Nat} {md2 : ℚ} {b1 b2 : BMap} {q : Pix} :
    matchable2 h w md2 b1 b2 q = true ↔ q.1 < w ∧ q.2 < h ∧ b2 q.2 q.1 = true ∧
      ∃ p : Pix, p.1 < w ∧ p.2 < h ∧ b1 p.2 p.1 = true ∧ (pixDist2 p q : ℚ) ≤ md2 := by
  unfold matchable2
  simp only [List.any_eq_true, Bool.and_eq_true, mem_pixels, mem_targets, beq_iff_eq]
  constructor
  · rintro ⟨p, ⟨a, b⟩, c, q', ⟨d, e, f⟩, g, rfl⟩; exact ⟨d, e, g, p, a, b, c, f⟩
  · rintro ⟨d, e, g, p, a, b, c, f⟩; exact ⟨p, ⟨a, b⟩, c, q, ⟨d, e, f⟩, g, rfl⟩

theorem mem_nodes2 {h w : Nat} {md2 : ℚ} {b1 b2 : BMap} {q : Pix} :
    q ∈ nodes2 h w md2 b1 b2 ↔ q.1 < w ∧ q.2 < h ∧ b2 q.2 q.1 = true ∧
      ∃ p : Pix, p.1 < w ∧ p.2 < h ∧ b1 p.2 p.1 = true ∧ (pixDist2 p q : ℚ) ≤ md2 := by
  unfold nodes2
  rw [List.mem_filter, matchable2_iff, mem_pixels]
  constructor
  · exact fun h => h.2
  · exact fun h => ⟨⟨h.1, h.2.1⟩, h⟩

theorem nodup_nodes1 (h w : Nat) (md2 : ℚ) (b1 b2 : BMap) : (nodes1 h w md2 b1 b2).Nodup :=
  (nodup_pixels h w).filter _

theorem nodup_nodes2 (h w : Nat) (md2 : ℚ) (b1 b2 : BMap) : (nodes2 h w md2 b1 b2).Nodup :=
  (nodup_pixels h w).filter _

theorem getD_idxOf {l : List Pix} {p : Pix} (hp : p ∈ l) : l.getD (l.idxOf p) (0, 0) = p := by
  have h := List.idxOf_lt_length_of_mem hp
  rw [List.getD_of_lt _ _ h, List.getElem_idxOf]

theorem idxOf_getD {l : List Pix} (hl : l.Nodup) {i : Nat} (hi : i < l.length) :
    l.idxOf (l.getD i (0, 0)) = i := by
  rw [List.getD_of_lt _ _ hi, hl.idxOf_getElem]

theorem getD_mem {l : List Pix} {i : Nat} (hi : i < l.length) : l.getD i (0, 0) ∈ l := by
  rw [List.getD_of_lt _ _ hi]; exact List.getElem_mem hi

theorem getD_inj {l : List Pix} (hl : l.Nodup) {i j : Nat} (hi : i < l.length) (hj : j < l.length)
    (h : l.getD i (0, 0) = l.getD j (0, 0)) : i = j := by
  rw [← idxOf_getD hl hi, ← idxOf_getD hl hj, h]

/-! ## Real edges -/

theorem mem_realEdges {h w : Nat} {md2 : ℚ} {b1 b2 : BMap} {e : MEdge} :
    e ∈ realEdges h w md2 b1 b2 ↔ e.i < (nodes1 h w md2 b1 b2).length ∧
      e.j < (nodes2 h w md2 b1 b2).length ∧
      e.d2 = pixDist2 ((nodes1 h w md2 b1 b2).getD e.i (0, 0)) ((nodes2 h w md2 b1 b2).getD e.j (0, 0)) ∧
      (e.d2 : ℚ) ≤ md2 := by
  unfold realEdges
  simp only [List.mem_flatMap, List.mem_map, List.mem_filter, mem_targets]
  constructor
  · rintro ⟨p, hp, q, ⟨⟨h1, h2, h3⟩, h4⟩, rfl⟩
    have hq : q ∈ nodes2 h w md2 b1 b2 := by
      unfold nodes2; rw [List.mem_filter, mem_pixels]; exact ⟨⟨h1, h2⟩, h4⟩
    refine ⟨List.idxOf_lt_length_of_mem hp, List.idxOf_lt_length_of_mem hq, ?_, h3⟩
    simp only
    rw [getD_idxOf hp, getD_idxOf hq]
  · rintro ⟨hi, hj, hd, hle⟩
    have hp := getD_mem hi
    have hq := getD_mem hj
    have hq' : matchable2 h w md2 b1 b2 ((nodes2 h w md2 b1 b2).getD e.j (0, 0)) = true :=
      (List.mem_filter.mp hq).2
    refine ⟨_, hp, _, ⟨⟨(mem_nodes2.mp hq).1, (mem_nodes2.mp hq).2.1, hd ▸ hle⟩, hq'⟩, ?_⟩
    rw [idxOf_getD (nodup_nodes1 ..) hi, idxOf_getD (nodup_nodes2 ..) hj, ← hd]

theorem nodup_realEdges (h w : Nat) (md2 : ℚ) (b1 b2 : BMap) :
    ((realEdges h w md2 b1 b2).map fun e => (e.i, e.j)).Nodup := by
  unfold realEdges
  simp only [List.map_flatMap, List.map_map]
  rw [List.nodup_flatMap]
  refine ⟨fun p hp => ?_, ?_⟩
  · apply List.Nodup.map_on _ ((nodup_targets h w md2 p).filter _)
    intro q hq q' hq' heq
    simp only [Function.comp_apply, Prod.mk.injEq, true_and] at heq
    rw [List.mem_filter, mem_targets] at hq hq'
    have m1 : q ∈ nodes2 h w md2 b1 b2 := by
      unfold nodes2; rw [List.mem_filter, mem_pixels]; exact ⟨⟨hq.1.1, hq.1.2.1⟩, hq.2⟩
    have m2 : q' ∈ nodes2 h w md2 b1 b2 := by
      unfold nodes2; rw [List.mem_filter, mem_pixels]; exact ⟨⟨hq'.1.1, hq'.1.2.1⟩, hq'.2⟩
    rw [← getD_idxOf m1, heq, getD_idxOf m2]
  · apply (nodup_nodes1 h w md2 b1 b2).imp_of_mem
    intro p p' hp hp' hne
    simp only [Function.onFun, List.disjoint_left, List.mem_map]
    rintro _ ⟨q, _, rfl⟩ ⟨q', _, heq⟩
    simp only [Function.comp_apply, Prod.mk.injEq] at heq
    apply hne
    rw [← getD_idxOf hp, ← heq.1, getD_idxOf hp']

/-! ## Rows of random connections -/

open Props in
theorem kRows_ok (k n : Nat) (xs : Nat → ℚ) (hx : UnitStream xs) (hk : k ≤ n) (cnt pos : Nat) :
    (kRows k n xs cnt pos).1.length = cnt ∧ ∀ r ∈ (kRows k n xs cnt pos).1, IsKSubset k n r := by
  induction cnt generalizing pos with
  | zero => simp [kRows]
  | succ cnt ih =>
    simp only [kRows, List.length_cons, List.mem_cons, forall_eq_or_imp]
    obtain ⟨a, b⟩ := ih (kOfN k n xs pos).2
    exact ⟨by omega, C14_kofn k n xs pos hx hk, b⟩

/-- Rows of connections: `cnt` rows, each a `k`-subset of `[0,n)`. -/
def GoodRows (k n cnt : Nat) (rows : List (List Nat)) : Prop :=
  rows.length = cnt ∧ ∀ r ∈ rows, Props.IsKSubset k n r

theorem GoodRows.getD {k n cnt : Nat} {rows : List (List Nat)} (h : GoodRows k n cnt rows) {i : Nat}
    (hi : i < cnt) : Props.IsKSubset k n (rows.getD i []) := by
  have hi' : i < rows.length := by rw [h.1]; exact hi
  rw [List.getD_of_lt _ _ hi']
  exact h.2 _ (List.getElem_mem hi')

theorem Props.IsKSubset.nodup {k n : Nat} {l : List Nat} (h : Props.IsKSubset k n l) : l.Nodup :=
  h.2.1.imp (fun h => Nat.ne_of_lt h)

/-- Counting lemma for the row structured edge lists. -/
theorem length_rows {k n cnt : Nat} {rows : List (List Nat)} (hr : GoodRows k n cnt rows) {β : Type}
    (f : Nat → Nat → β) :
    ((List.range rows.length).flatMap fun (i : Nat) => (rows.getD i []).map (f i)).length = k * cnt := by
  rw [List.length_flatMap, hr.1]
  have : (List.range cnt).map (fun (i : Nat) => ((rows.getD i []).map (f i)).length) =
      (List.range cnt).map (fun _ => k) := by
    apply List.map_congr_left
    intro i hi
    rw [List.length_map]
    exact (hr.getD (List.mem_range.mp hi)).1
  rw [this]
  simp [Nat.mul_comm]

theorem nodup_rows {k n cnt : Nat} {rows : List (List Nat)} (hr : GoodRows k n cnt rows) {β : Type}
    (f : Nat → Nat → β) (hf : ∀ i j i' j', f i j = f i' j' → i = i' ∧ j = j') :
    ((List.range rows.length).flatMap fun (i : Nat) => (rows.getD i []).map (f i)).Nodup := by
  rw [List.nodup_flatMap, hr.1]
  refine ⟨fun i hi => ?_, ?_⟩
  · exact (hr.getD (List.mem_range.mp hi)).nodup.map (fun a b hab => (hf _ _ _ _ hab).2)
  · apply List.nodup_range.imp
    intro a b hab
    simp only [Function.onFun, List.disjoint_left, List.mem_map]
    rintro _ ⟨y, _, rfl⟩ ⟨y', _, h⟩
    exact hab (hf _ _ _ _ h).1.symm

theorem mem_rows {k n cnt : Nat} {rows : List (List Nat)} (hr : GoodRows k n cnt rows) {β : Type}
    (f : Nat → Nat → β) {b : β}
    (hb : b ∈ (List.range rows.length).flatMap fun (i : Nat) => (rows.getD i []).map (f i)) :
    ∃ i j, i < cnt ∧ j < n ∧ j ∈ rows.getD i [] ∧ b = f i j := by
  simp only [List.mem_flatMap, List.mem_range, List.mem_map, hr.1] at hb
  obtain ⟨i, hi, j, hj, rfl⟩ := hb
  exact ⟨i, j, hi, (hr.getD hi).2.2 j hj, hj, rfl⟩

end EdgeEval
