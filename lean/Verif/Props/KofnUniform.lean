import Mathlib.Data.Finset.Sort
import Mathlib.Data.Finset.Powerset
import Mathlib.Tactic.IntervalCases
import Verif.Lemmas.KofnUniform

/-! # C14: the sampler is uniform -/

namespace EdgeEval.Props

open EdgeEval KofnU Finset

/-- C14: the sample is uniformly distributed: whenever each draw takes `M` equally likely values and `M` is divisible by
`1, …, n`, every `k`-element subset of `[0, n)` is the result of the same number `M ^ L / C(n, k)` of the `M ^ L` streams.
(`k n` draws always suffice, so the result depends on the first `L ≥ k n` draws only.) -/
theorem C14_uniform (k n : Nat) (hk : k ≤ n) (M : Nat) (hM : 0 < M) (hdvd : ∀ m, 1 ≤ m → m ≤ n → m ∣ M)
    (L : Nat) (hL : k * n ≤ L) (S : List Nat) (hS : IsKSubset k n S) :
    (univ.filter fun v : Fin L → Fin M => (kOfN k n (gridStream v) 0).1 = S).card * n.choose k = M ^ L := by
  have h := count_eq M hM S (kOfNT k n) L ((kOfNT_fits M k n hk hdvd).mono hL)
  rw [kOfNT_prob k n hk S hS] at h
  have e : (univ.filter fun v : Fin L → Fin M => (Tree.run (gridStream v) (kOfNT k n) 0).1 = S) =
      univ.filter fun v : Fin L → Fin M => (kOfN k n (gridStream v) 0).1 = S := by
    refine Finset.filter_congr fun v _ => ?_
    rw [kOfNT_run _ (gridStream_unit hM v) k n 0 hk]
  rw [e] at h
  have hc : (n.choose k : ℚ) ≠ 0 := by exact_mod_cast (Nat.choose_pos hk).ne'
  rw [mul_one_div, eq_div_iff hc] at h
  exact_mod_cast h

theorem card_subsets_with (k n x : Nat) (hx : x < n) :
    (((range n).powersetCard (k + 1)).filter (x ∈ ·)).card * n = (k + 1) * n.choose (k + 1) := by
  have e : ((range n).powersetCard (k + 1)).filter (x ∈ ·) = (((range n).erase x).powersetCard k).image (insert x) := by
    ext s
    rw [Finset.mem_filter, Finset.mem_powersetCard, Finset.mem_image]
    constructor
    · rintro ⟨⟨h1, h2⟩, h3⟩
      refine ⟨s.erase x, ?_, Finset.insert_erase h3⟩
      rw [Finset.mem_powersetCard]
      exact ⟨Finset.erase_subset_erase x h1, by rw [Finset.card_erase_of_mem h3, h2]; rfl⟩
    · rintro ⟨t, ht, rfl⟩
      rw [Finset.mem_powersetCard] at ht
      have hxt : x ∉ t := fun h => (Finset.mem_erase.1 (ht.1 h)).1 rfl
      refine ⟨⟨?_, by rw [Finset.card_insert_of_notMem hxt, ht.2]⟩, Finset.mem_insert_self _ _⟩
      refine Finset.insert_subset (Finset.mem_range.2 hx) (ht.1.trans (Finset.erase_subset _ _))
  have hinj : Set.InjOn (insert x) (((range n).erase x).powersetCard k : Set (Finset Nat)) := by
    intro s hs t ht h
    rw [Finset.mem_coe, Finset.mem_powersetCard] at hs ht
    have h1 : x ∉ s := fun h => (Finset.mem_erase.1 (hs.1 h)).1 rfl
    have h2 : x ∉ t := fun h => (Finset.mem_erase.1 (ht.1 h)).1 rfl
    rw [← Finset.erase_insert h1, ← Finset.erase_insert h2, h]
  rw [e, Finset.card_image_of_injOn hinj, Finset.card_powersetCard, Finset.card_erase_of_mem (Finset.mem_range.2 hx), Finset.card_range]
  obtain ⟨m, rfl⟩ : ∃ m, n = m + 1 := ⟨n - 1, by omega⟩
  have := Nat.add_one_mul_choose_eq m k
  rw [Nat.add_sub_cancel, Nat.mul_comm, this, Nat.mul_comm]

/-- C14: every single element is sampled with probability `k / n`: the streams whose sample contains `x` are that share of
all streams. -/
theorem C14_inclusion (k n : Nat) (hk : k ≤ n) (M : Nat) (hM : 0 < M) (hdvd : ∀ m, 1 ≤ m → m ≤ n → m ∣ M)
    (L : Nat) (hL : k * n ≤ L) (x : Nat) (hx : x < n) :
    (univ.filter fun v : Fin L → Fin M => x ∈ (kOfN k n (gridStream v) 0).1).card * n = k * M ^ L := by
  cases k with
  | zero =>
    rw [Nat.zero_mul, Finset.card_eq_zero.2, Nat.zero_mul]
    rw [Finset.filter_eq_empty_iff]
    intro v _ h
    have := (C14_kofn 0 n (gridStream v) 0 (gridStream_unit hM v) hk).1
    rw [List.length_eq_zero_iff.1 this] at h
    cases h
  | succ k =>
    have hc : 0 < n.choose (k + 1) := Nat.choose_pos hk
    set T := ((range n).powersetCard (k + 1)).filter (x ∈ ·) with hT
    have hok := fun v : Fin L → Fin M => C14_kofn (k + 1) n (gridStream v) 0 (gridStream_unit hM v) hk
    have key : (univ.filter fun v : Fin L → Fin M => x ∈ (kOfN (k + 1) n (gridStream v) 0).1).card =
        ∑ t ∈ T, (univ.filter fun v : Fin L → Fin M => (kOfN (k + 1) n (gridStream v) 0).1 = t.sort (· ≤ ·)).card := by
      rw [Finset.card_eq_sum_card_fiberwise (t := T) (f := fun v => (kOfN (k + 1) n (gridStream v) 0).1.toFinset)]
      · refine Finset.sum_congr rfl fun t ht => ?_
        congr 1
        ext v
        simp only [Finset.mem_filter, Finset.mem_univ, true_and]
        constructor
        · rintro ⟨_, rfl⟩
          have hp := (hok v).2.1
          refine (List.toFinset_sort (· ≤ ·) (hp.imp fun h => Nat.ne_of_lt h)).2 (hp.imp fun h => Nat.le_of_lt h) |>.symm
        · intro h
          rw [h, Finset.sort_toFinset]
          refine ⟨?_, rfl⟩
          rw [Finset.mem_sort]
          exact (Finset.mem_filter.1 ht).2
      · intro v hv
        have hv := (Finset.mem_filter.1 (Finset.mem_coe.1 hv)).2
        rw [Finset.mem_coe, hT, Finset.mem_filter, Finset.mem_powersetCard]
        obtain ⟨h1, h2, h3⟩ := hok v
        refine ⟨⟨?_, ?_⟩, List.mem_toFinset.2 hv⟩
        · intro y hy
          exact Finset.mem_range.2 (h3 y (List.mem_toFinset.1 hy))
        · rw [List.toFinset_card_of_nodup (h2.imp fun h => Nat.ne_of_lt h), h1]
    have hfib : ∀ t ∈ T, (univ.filter fun v : Fin L → Fin M => (kOfN (k + 1) n (gridStream v) 0).1 = t.sort (· ≤ ·)).card * n.choose (k + 1) = M ^ L := by
      intro t ht
      refine C14_uniform (k + 1) n hk M hM hdvd L hL _ ?_
      obtain ⟨ht1, ht2⟩ := Finset.mem_powersetCard.1 (Finset.mem_filter.1 ht).1
      refine ⟨by rw [Finset.length_sort, ht2], ?_, ?_⟩
      · exact Finset.sortedLT_sort t |>.pairwise
      · intro y hy
        exact Finset.mem_range.1 (ht1 ((Finset.mem_sort _).1 hy))
    apply Nat.eq_of_mul_eq_mul_right hc
    calc _ = ((∑ t ∈ T, (univ.filter fun v : Fin L → Fin M => (kOfN (k + 1) n (gridStream v) 0).1 = t.sort (· ≤ ·)).card) * n.choose (k + 1)) * n := by
          rw [key]; ring
      _ = (T.card * M ^ L) * n := by
          rw [Finset.sum_mul, Finset.sum_congr rfl hfib, Finset.sum_const, smul_eq_mul]
      _ = (T.card * n) * M ^ L := by ring
      _ = (k + 1) * n.choose (k + 1) * M ^ L := by rw [card_subsets_with k n x hx]
      _ = _ := by ring

/-- The hypotheses can be met: with `M = 2`, the four streams of two draws give each of the two 1-element subsets of
`{0, 1}` twice. -/
example : (univ.filter fun v : Fin 2 → Fin 2 => (kOfN 1 2 (gridStream v) 0).1 = [1]).card = 2 ∧
    (∀ m, 1 ≤ m → m ≤ 2 → m ∣ 2) := by
  refine ⟨?_, fun m h1 h2 => ?_⟩
  · have h := C14_uniform 1 2 (by omega) 2 (by omega) (fun m h1 h2 => by interval_cases m <;> decide) 2 (by omega) [1]
      ⟨rfl, by simp, by simp⟩
    simp only [Nat.choose_one_right] at h
    omega
  · interval_cases m <;> decide

/-- Such an `M` always exists. -/
example (n : Nat) : 0 < n.factorial ∧ ∀ m, 1 ≤ m → m ≤ n → m ∣ n.factorial :=
  ⟨Nat.factorial_pos n, fun _ h1 h2 => Nat.dvd_factorial h1 h2⟩

end EdgeEval.Props
