import Verif.Lemmas.Digits
import Verif.Spec.Labels

/-!
# C26: instance ids
-/

namespace EdgeEval.Props

theorem instLoop_eq (cat v : Nat) : ∀ (cats : List Nat) (i num out : Nat),
    instLoop cat v cats i num out =
      if i + 1 ≤ v ∧ cats[v - i - 1]? = some cat then instId cat (num + (cats.take (v - i - 1)).count cat) else out := by
  intro cats
  induction cats with
  | nil => intro i num out; simp [instLoop]
  | cons c cs ih =>
    intro i num out
    by_cases hc : cat = c
    · rw [instLoop, if_pos hc, ih]
      rcases Nat.lt_trichotomy v (i + 1) with hv | hv | hv
      · rw [if_neg (by omega), if_neg (by omega), if_neg (by omega)]
      · subst hv
        rw [if_neg (by omega), if_pos rfl]
        simp [hc]
      · have e1 : v - i - 1 = (v - (i + 1) - 1) + 1 := by omega
        rw [e1, List.getElem?_cons_succ, List.take_succ_cons]
        have : (c :: cs.take (v - (i + 1) - 1)).count cat = (cs.take (v - (i + 1) - 1)).count cat + 1 := by
          rw [hc, List.count_cons_self]
        rw [this, if_neg (by omega : ¬ v = i + 1)]
        have e2 : num + ((cs.take (v - (i + 1) - 1)).count cat + 1) = num + 1 + (cs.take (v - (i + 1) - 1)).count cat := by
          omega
        rw [e2]
        congr 1
        simp only [eq_iff_iff, and_congr_left_iff]
        intro _; omega
    · rw [instLoop, if_neg hc, ih]
      rcases Nat.lt_trichotomy v (i + 1) with hv | hv | hv
      · rw [if_neg (by omega), if_neg (by omega)]
      · subst hv
        rw [if_neg (by omega), if_neg]
        simp [Ne.symm hc]
      · have e1 : v - i - 1 = (v - (i + 1) - 1) + 1 := by omega
        rw [e1, List.getElem?_cons_succ, List.take_succ_cons, List.count_cons_of_ne (Ne.symm hc)]
        congr 1
        simp only [eq_iff_iff, and_congr_left_iff]
        intro _; omega

theorem convertFold (v : Nat) (cats : List Nat) : ∀ (pres : List Nat) (out : Nat),
    (∀ c, 1 ≤ v → cats[v - 1]? = some c → c ∈ pres →
      pres.foldl (fun out cat => instLoop cat v cats 0 0 out) out = instId c ((cats.take (v - 1)).count c)) ∧
    ((v = 0 ∨ cats.length < v ∨ ∃ c, cats[v - 1]? = some c ∧ c ∉ pres) →
      pres.foldl (fun out cat => instLoop cat v cats 0 0 out) out = out) := by
  intro pres
  induction pres with
  | nil => intro out; simp
  | cons a pres ih =>
    intro out
    constructor
    · intro c hv hc hm
      rw [List.foldl_cons]
      by_cases h : c ∈ pres
      · exact (ih _).1 c hv hc h
      · have : c = a := by rcases List.mem_cons.mp hm with h' | h'
                           · exact h'
                           · exact absurd h' h
        subst this
        rw [(ih _).2 (Or.inr (Or.inr ⟨c, hc, h⟩)), instLoop_eq]
        simp only [Nat.sub_zero, Nat.zero_add, hv, hc, and_self, if_true]
    · intro h
      rw [List.foldl_cons, (ih _).2, instLoop_eq]
      · rw [if_neg]
        simp only [Nat.sub_zero, Nat.zero_add]
        rintro ⟨h1, h2⟩
        rcases h with h | h | ⟨c, hc, hn⟩
        · omega
        · rw [List.getElem?_eq_none (by omega)] at h2; cases h2
        · rw [hc] at h2
          cases h2
          exact hn List.mem_cons_self
      · rcases h with h | h | ⟨c, hc, hn⟩
        · exact Or.inl h
        · exact Or.inr (Or.inl h)
        · exact Or.inr (Or.inr ⟨c, hc, fun hm => hn (List.mem_cons_of_mem _ hm)⟩)

/-- C26: what `convert_inst_seg` writes. Instance number `v` (pixels with value `v`, counted from 1) has category
`inst_cats[v-1]`; if that category is present, its pixels get the id made of the category and the number of
earlier instances of the same category; the background and instances of categories not present get 0. -/
theorem C26_pixels (seg : Img Nat) (cats pres : List Nat) (i j : Nat) :
    (convertInst seg cats pres).rows = seg.rows ∧ (convertInst seg cats pres).cols = seg.cols ∧
    (∀ v c, seg.at_ i j = v + 1 → cats[v]? = some c → c ∈ pres →
      (convertInst seg cats pres).at_ i j = instId c ((cats.take v).count c)) ∧
    (∀ v c, seg.at_ i j = v + 1 → cats[v]? = some c → c ∉ pres → (convertInst seg cats pres).at_ i j = 0) ∧
    ((seg.at_ i j = 0 ∨ cats.length < seg.at_ i j) → (convertInst seg cats pres).at_ i j = 0) := by
  obtain ⟨h1, h2⟩ := convertFold (seg.at_ i j) cats pres 0
  refine ⟨rfl, rfl, ?_, ?_, ?_⟩
  · intro v c hv hc hm
    have := h1 c (by omega) (by rw [hv]; exact hc) hm
    rw [hv] at this
    simpa [convertInst, hv] using this
  · intro v c hv hc hm
    exact h2 (Or.inr (Or.inr ⟨c, by rw [hv]; exact hc, hm⟩))
  · rintro (h | h)
    · exact h2 (Or.inl h)
    · exact h2 (Or.inr (Or.inl h))

/-- C26: the id of instance `k < 1000` of category `c` is `1000 c + k`. -/
theorem C26_id_value (c k : Nat) (hk : k < 1000) : instId c k = c * 1000 + k := instId_eq c k hk

/-- C26: the loop implementation of instance-sensitive edges recovers the category (below 100) and the instance
number (below 1000) from the id, and rebuilds the same id from them. -/
theorem C26_recover (c k : Nat) (hc : c < 100) (hk : k < 1000) :
    parseLoop (instId c k) = .ok (c, k) ∧ iidOf c k = instId c k := by
  rw [instId_eq c k hk, iidOf_eq c k hk, parseLoop_eq _ (by omega)]
  refine ⟨?_, rfl⟩
  have h1 : (c * 1000 + k) / 1000 = c := by omega
  have h2 : (c * 1000 + k) % 1000 = k := by omega
  rw [h1, h2]

/-- C26: the multiprocess and on-the-fly versions recover them for categories 10 to 99. -/
theorem C26_recover_mp (c k : Nat) (hc : 10 ≤ c) (hc' : c < 100) (hk : k < 1000) :
    parseMp (instId c k) = .ok (c, k) := by
  rw [instId_eq c k hk, parseMp_eq _ (by omega) (by omega)]
  have h1 : (c * 1000 + k) / 1000 = c := by omega
  have h2 : (c * 1000 + k) % 1000 = k := by omega
  rw [h1, h2]

/-- C26 (defect): for categories below 10 they read a different category: instance 3 of category 5 (id 5003) is read
as instance 3 of category 50. -/
theorem C26_mp_misreads_small_categories : instId 5 3 = 5003 ∧ parseMp (instId 5 3) = .ok (50, 3) := by
  have h : instId 5 3 = 5003 := instId_eq 5 3 (by norm_num)
  have hs : pyStr 5003 = [5, 0, 0, 3] := by simp [pyStr]
  refine ⟨h, ?_⟩
  rw [h, parseMp, hs]
  rfl

/-- C26: distinct instances get distinct ids: two pixels of instances with present categories, each category having
at most 1000 instances, have the same id only if they belong to the same instance. -/
theorem C26_distinct (seg : Img Nat) (cats pres : List Nat) (hcount : ∀ c ∈ pres, cats.count c ≤ 1000)
    (i j i' j' v v' c c' : Nat) (hv : seg.at_ i j = v + 1) (hv' : seg.at_ i' j' = v' + 1)
    (hc : cats[v]? = some c) (hc' : cats[v']? = some c') (hm : c ∈ pres) (hm' : c' ∈ pres)
    (heq : (convertInst seg cats pres).at_ i j = (convertInst seg cats pres).at_ i' j') : v = v' := by
  have hrank : ∀ (u d : Nat), cats[u]? = some d → d ∈ pres → (cats.take u).count d < 1000 := by
    intro u d hu hd
    have hlt : u < cats.length := by
      by_contra h
      rw [List.getElem?_eq_none (by omega)] at hu; cases hu
    have h1 : (cats.take (u + 1)).count d ≤ cats.count d := (List.take_sublist _ _).count_le _
    rw [List.take_add_one, hu] at h1
    simp only [Option.toList_some, List.count_append, List.count_singleton, beq_self_eq_true, if_true] at h1
    have := hcount d hd
    omega
  have hr := hrank v c hc hm
  have hr' := hrank v' c' hc' hm'
  rw [(C26_pixels seg cats pres i j).2.2.1 v c hv hc hm, (C26_pixels seg cats pres i' j').2.2.1 v' c' hv' hc' hm',
    instId_eq _ _ hr, instId_eq _ _ hr'] at heq
  have hcc : c = c' := by omega
  subst hcc
  have hk : (cats.take v).count c = (cats.take v').count c := by omega
  by_contra hne
  have strict : ∀ a b : Nat, a < b → cats[a]? = some c → (cats.take a).count c < (cats.take b).count c := by
    intro a b hab ha
    have h1 : (cats.take (a + 1)).count c ≤ (cats.take b).count c :=
      (List.take_sublist_take_left (by omega)).count_le _
    rw [List.take_add_one, ha] at h1
    simp only [Option.toList_some, List.count_append, List.count_singleton, beq_self_eq_true, if_true] at h1
    omega
  rcases Nat.lt_or_gt_of_ne hne with h | h
  · have := strict v v' h hc; omega
  · have := strict v' v h hc'; omega

/-- C26: an instance of a positive category is never confused with the background. -/
theorem C26_not_background (seg : Img Nat) (cats pres : List Nat) (i j v c : Nat) (hcount : cats.count c ≤ 1000)
    (hv : seg.at_ i j = v + 1) (hc : cats[v]? = some c) (hm : c ∈ pres) (hpos : 0 < c) :
    (convertInst seg cats pres).at_ i j ≠ 0 := by
  rw [(C26_pixels seg cats pres i j).2.2.1 v c hv hc hm]
  have hlt : v < cats.length := by
    by_contra h
    rw [List.getElem?_eq_none (by omega)] at hc; cases hc
  have h1 : (cats.take (v + 1)).count c ≤ cats.count c := (List.take_sublist _ _).count_le _
  rw [List.take_add_one, hc] at h1
  simp only [Option.toList_some, List.count_append, List.count_singleton, beq_self_eq_true, if_true] at h1
  rw [instId_eq _ _ (by omega)]
  omega

/-- C26 (limit): beyond 1000 instances ids collide: instance 1000 of category 1 has the id of instance 0 of
category 11. -/
theorem C26_collision_beyond_1000 : instId 1 1000 = instId 11 0 := by
  rw [instId_eq 11 0 (by norm_num)]
  have h1 : pyStr 1 = [1] := by simp [pyStr]
  have h2 : pyStr 1000 = [1, 0, 0, 0] := by simp [pyStr]
  rw [instId, h1, h2]; rfl

/-- three instances, of categories 7, 15 and 7; all hypotheses of the theorems above are met. -/
example : let seg : Img Nat := ⟨2, 2, fun i j => i + j + 1⟩
    (convertInst seg [7, 15, 7] [7, 15]).at_ 0 0 = 7000 ∧ (convertInst seg [7, 15, 7] [7, 15]).at_ 0 1 = 15000 ∧
    (convertInst seg [7, 15, 7] [7, 15]).at_ 1 1 = 7001 ∧ (convertInst seg [7, 15, 7] [15]).at_ 1 1 = 0 ∧
    ∀ c ∈ [7, 15], [7, 15, 7].count c ≤ 1000 := by
  intro seg
  refine ⟨?_, ?_, ?_, ?_, by decide⟩
  · rw [(C26_pixels seg [7, 15, 7] [7, 15] 0 0).2.2.1 0 7 rfl rfl (by decide)]; exact instId_eq 7 0 (by norm_num)
  · rw [(C26_pixels seg [7, 15, 7] [7, 15] 0 1).2.2.1 1 15 rfl rfl (by decide)]; exact instId_eq 15 0 (by norm_num)
  · rw [(C26_pixels seg [7, 15, 7] [7, 15] 1 1).2.2.1 2 7 rfl rfl (by decide)]; exact instId_eq 7 1 (by norm_num)
  · exact (C26_pixels seg [7, 15, 7] [15] 1 1).2.2.2.1 2 7 rfl rfl (by decide)

end EdgeEval.Props
