import Verif.Lemmas.FloatSqrt
import Verif.Lemmas.CsaFloat
import Verif.Lemmas.MatchQuality
import Verif.Lemmas.KofnFloat
import Verif.Lemmas.KofnOnto
import Verif.Model.MatchFloat
import Verif.Props.Match

/-! # The matcher in floating point: it is the exact matcher with rounded tolerance and outlier weight -/

namespace EdgeEval

variable {fl sq : ℚ → ℚ}

theorem rintQ_eq {x : ℚ} {k : ℤ} (h : |x - k| < 1 / 2) : rintQ x = k := by
  obtain ⟨h1, h2⟩ := abs_lt.mp h
  unfold rintQ
  rcases le_or_gt (k : ℚ) x with hk | hk
  · have hf : ⌊x⌋ = k := Int.floor_eq_iff.mpr ⟨hk, by linarith⟩
    rw [hf, if_pos (by linarith)]
  · have hf : ⌊x⌋ = k - 1 := Int.floor_eq_iff.mpr ⟨by push_cast; linarith, by push_cast; linarith⟩
    rw [hf]
    push_cast
    rw [if_neg (by linarith), if_pos (by linarith)]
    ring

theorem RoundsNearest.real_err (H : RoundsNearest fl) {x : ℚ} (hx : 2 ^ (-1022 : ℤ) ≤ |x|) :
    |(fl x : ℝ) - x| ≤ 1 / 2 ^ 53 * |(x : ℝ)| := by
  have := H.rel_err x hx
  have h : ((|fl x - x| : ℚ) : ℝ) ≤ ((1 / 2 ^ 53 * |x| : ℚ) : ℝ) := by exact_mod_cast this
  push_cast at h
  exact h

/-- The integer nearest to `100 √d2` is at a distance from the ties. -/
theorem rint100_gap (d2 : Nat) : let k := rint100 d2
    4 * (10000 * d2) + 1 ≤ (2 * k + 1) ^ 2 ∧ (1 ≤ k → (2 * k - 1) ^ 2 + 3 ≤ 4 * (10000 * d2)) := by
  intro k
  have hk : k = if 10000 * d2 > Nat.sqrt (10000 * d2) * Nat.sqrt (10000 * d2) + Nat.sqrt (10000 * d2)
    then Nat.sqrt (10000 * d2) + 1 else Nat.sqrt (10000 * d2) := rfl
  have h1 := Nat.sqrt_le (10000 * d2)
  have h2 := Nat.sqrt_lt_self (n := 10000 * d2)
  have h3 := Nat.lt_succ_sqrt (10000 * d2)
  generalize 10000 * d2 = m at *
  generalize Nat.sqrt m = s at *
  rw [Nat.succ_eq_add_one] at h3
  split at hk
  · rename_i hgt
    rw [hk]
    constructor
    · nlinarith
    · intro _
      have : 2 * (s + 1) - 1 = 2 * s + 1 := by omega
      rw [this]
      nlinarith
  · rename_i hgt
    rw [hk]
    constructor
    · nlinarith
    · intro h
      obtain ⟨t, rfl⟩ : ∃ t, s = t + 1 := ⟨s - 1, by omega⟩
      have : 2 * (t + 1) - 1 = 2 * t + 1 := by omega
      rw [this]
      nlinarith

theorem sqrt_hundred (d2 : Nat) : √(d2 : ℝ) * 100 = √((10000 * d2 : Nat) : ℝ) := by
  rw [Nat.cast_mul, Real.sqrt_mul (by positivity)]
  have : √((10000 : Nat) : ℝ) = 100 := by
    rw [show ((10000 : Nat) : ℝ) = 100 ^ 2 by norm_num, Real.sqrt_sq (by norm_num)]
  rw [this]; ring

/-- A number close enough to `100 √d2` rounds to the same integer. -/
theorem rint_close {d2 : Nat} (hd : d2 ≤ 2 ^ 35) {v : ℚ}
    (hv : |(v : ℝ) - √(d2 : ℝ) * 100| ≤ (21 / 10) / 2 ^ 53 * (√(d2 : ℝ) * 100)) : rintQ v = rint100 d2 := by
  rw [sqrt_hundred] at hv
  obtain ⟨g1, g2⟩ := rint100_gap d2
  have hr := Props.C11_rint d2
  rw [sqrt_hundred] at hr
  generalize rint100 d2 = k at *
  have hm : 10000 * d2 ≤ 10000 * 2 ^ 35 := by omega
  generalize 10000 * d2 = m at *
  set z := √(m : ℝ) with hz
  have hz0 : 0 ≤ z := Real.sqrt_nonneg _
  have hzz : z * z = m := Real.mul_self_sqrt (by positivity)
  have hmr : (m : ℝ) ≤ 10000 * 2 ^ 35 := by exact_mod_cast hm
  have hzb : z ≤ 2 ^ 25 := by
    rw [hz]
    apply Real.sqrt_le_iff.mpr
    exact ⟨by positivity, hmr.trans (by norm_num)⟩
  obtain ⟨r1, r2⟩ := abs_lt.mp hr
  -- the margin
  have hδ : (21 / 10 : ℝ) / 2 ^ 53 * z * (2 * (4 * z + 2)) < 1 := by
    have e : (21 / 10 : ℝ) / 2 ^ 53 * z * (2 * (4 * z + 2)) = (21 / 10 : ℝ) / 2 ^ 53 * (8 * (z * z) + 4 * z) := by ring
    rw [e, hzz]
    have : 8 * (m : ℝ) + 4 * z ≤ 8 * (10000 * 2 ^ 35) + 4 * 2 ^ 25 := by linarith
    calc (21 / 10 : ℝ) / 2 ^ 53 * (8 * m + 4 * z) ≤ (21 / 10 : ℝ) / 2 ^ 53 * (8 * (10000 * 2 ^ 35) + 4 * 2 ^ 25) := by gcongr
      _ < 1 := by norm_num
  obtain ⟨v1, v2⟩ := abs_le.mp hv
  have g1' : 4 * (m : ℝ) + 1 ≤ (2 * k + 1) ^ 2 := by exact_mod_cast g1
  have hvk : |(v : ℝ) - k| < 1 / 2 := by
    rw [abs_lt]
    constructor
    · rcases Nat.eq_zero_or_pos k with h0 | hpos
      · have hk0 : (k : ℝ) = 0 := by exact_mod_cast h0
        rw [hk0] at *
        have : (21 / 10 : ℝ) / 2 ^ 53 * z ≤ z := by
          calc (21 / 10 : ℝ) / 2 ^ 53 * z ≤ 1 * z := by gcongr; norm_num
            _ = z := one_mul z
        linarith
      · have g2' : (2 * (k : ℝ) - 1) ^ 2 + 3 ≤ 4 * m := by
          have := g2 hpos
          have h2 : (((2 * k - 1 : Nat) : ℝ)) ^ 2 + 3 ≤ 4 * m := by exact_mod_cast this
          rw [Nat.cast_sub (by omega)] at h2
          push_cast at h2
          exact h2
        by_contra hc
        push Not at hc
        have hk1 : (1 : ℝ) ≤ k := by exact_mod_cast hpos
        have h5 : 2 * z - (2 * k - 1) ≤ 2 * ((21 / 10 : ℝ) / 2 ^ 53 * z) := by linarith
        have h6 : (2 * z - (2 * k - 1)) * (2 * z + (2 * k - 1)) ≥ 3 := by nlinarith
        have h7 : 2 * z + (2 * k - 1) ≤ 4 * z + 2 := by linarith
        have h8 : 0 ≤ 2 * z + (2 * k - 1) := by linarith
        have h9 : (2 * z - (2 * k - 1)) * (2 * z + (2 * k - 1)) ≤ 2 * ((21 / 10 : ℝ) / 2 ^ 53 * z) * (4 * z + 2) := by
          calc _ ≤ 2 * ((21 / 10 : ℝ) / 2 ^ 53 * z) * (2 * z + (2 * k - 1)) := by gcongr
            _ ≤ _ := by gcongr
        linarith
    · by_contra hc
      push Not at hc
      have h5 : (2 * k + 1) - 2 * z ≤ 2 * ((21 / 10 : ℝ) / 2 ^ 53 * z) := by linarith
      have h6 : ((2 * k + 1) - 2 * z) * ((2 * k + 1) + 2 * z) ≥ 1 := by nlinarith
      have h7 : (2 * k + 1) + 2 * z ≤ 4 * z + 2 := by linarith
      have h9 : ((2 * k + 1) - 2 * z) * ((2 * k + 1) + 2 * z) ≤ 2 * ((21 / 10 : ℝ) / 2 ^ 53 * z) * (4 * z + 2) := by
        calc _ ≤ 2 * ((21 / 10 : ℝ) / 2 ^ 53 * z) * ((2 * k + 1) + 2 * z) := by gcongr
          _ ≤ _ := by gcongr
      linarith
  apply rintQ_eq
  have : ((|v - ((k : ℤ) : ℚ)| : ℚ) : ℝ) < ((1 / 2 : ℚ) : ℝ) := by push_cast; exact hvk
  exact_mod_cast this

/-- The rounded weight of an edge is the exact one. -/
theorem weightF_eq (H : RoundsNearest fl) (S : SqrtNearest sq) {d2 : Nat} (hd : d2 ≤ 2 ^ 35) :
    weightF fl sq d2 = rint100 d2 := by
  unfold weightF
  apply rint_close hd
  have hs := S.rel_err_nat d2
  rcases Nat.eq_zero_or_pos d2 with rfl | hpos
  · simp [S.zero, H.zero]
  have h1 : (1 : ℝ) ≤ √(d2 : ℝ) := by rw [Real.one_le_sqrt]; exact_mod_cast hpos
  generalize √(d2 : ℝ) = t at *
  obtain ⟨s1, s2⟩ := abs_le.mp hs
  have hlow : (1 / 2 : ℝ) ≤ (sq (d2 : ℚ) : ℝ) := by
    have : (1 : ℝ) / 2 ^ 53 * t ≤ 1 / 2 * t := by gcongr; norm_num
    linarith
  have hlow' : (1 / 2 : ℚ) ≤ sq (d2 : ℚ) := by
    have : ((1 / 2 : ℚ) : ℝ) ≤ (sq (d2 : ℚ) : ℝ) := by push_cast; exact hlow
    exact_mod_cast this
  have he := H.real_err (x := sq (d2 : ℚ) * (multiplier : Nat)) (by
    rw [abs_of_nonneg (by positivity)]
    have : (2 : ℚ) ^ (-1022 : ℤ) ≤ 1 := zpow_le_one_of_nonpos₀ (by norm_num) (by norm_num)
    refine this.trans ?_
    simp only [multiplier]
    push_cast
    linarith only [hlow'])
  simp only [multiplier] at he ⊢
  push_cast at he
  rw [abs_of_nonneg (show (0 : ℝ) ≤ (sq (d2 : ℚ) : ℝ) * 100 by positivity)] at he
  obtain ⟨e1, e2⟩ := abs_le.mp he
  have hu : (1 : ℝ) / 2 ^ 53 * ((sq (d2 : ℚ) : ℝ) * 100) ≤ (1 / 2 ^ 53) * (t * 100) + 1 / 10 / 2 ^ 53 * (t * 100) := by
    have h3 : (sq (d2 : ℚ) : ℝ) ≤ t + 1 / 10 * t := by
      have : (1 : ℝ) / 2 ^ 53 * t ≤ 1 / 10 * t := by gcongr; norm_num
      linarith
    calc (1 : ℝ) / 2 ^ 53 * ((sq (d2 : ℚ) : ℝ) * 100) ≤ 1 / 2 ^ 53 * ((t + 1 / 10 * t) * 100) := by gcongr
      _ = _ := by ring
  rw [abs_le]
  push_cast
  constructor
  · linarith
  · linarith

def LexLt (a b : Int × Int) : Prop := a.1 < b.1 ∨ (a.1 = b.1 ∧ a.2 < b.2)

theorem window_sorted (r : Nat) : (window r).Pairwise LexLt := by
  unfold window
  rw [List.pairwise_flatMap]
  refine ⟨fun u _ => ?_, ?_⟩
  · rw [List.pairwise_map]
    refine List.pairwise_lt_range.imp fun {a b} hab => .inr ⟨rfl, ?_⟩
    simp only
    omega
  · refine List.pairwise_lt_range.imp fun {a b} hab x hx y hy => .inl ?_
    obtain ⟨i, _, rfl⟩ := List.mem_map.mp hx
    obtain ⟨j, _, rfl⟩ := List.mem_map.mp hy
    simp only
    omega

theorem window_filter {r R : Nat} (h : r ≤ R) :
    (window R).filter (fun uv => decide (uv.1.natAbs ≤ r ∧ uv.2.natAbs ≤ r)) = window r := by
  have hs : ∀ r, (window r).Nodup := fun r => (window_sorted r).imp (by
    rintro ⟨a, b⟩ ⟨c, d⟩ hab heq
    unfold LexLt at hab
    simp only [Prod.mk.injEq] at heq
    simp only at hab
    omega)
  apply List.Perm.eq_of_pairwise (le := LexLt) _ ((window_sorted R).filter _) (window_sorted r)
  · rw [List.perm_ext_iff_of_nodup ((hs R).filter _) (hs r)]
    intro uv
    rw [List.mem_filter, mem_window, mem_window, decide_eq_true_eq]
    omega
  · rintro ⟨a, b⟩ ⟨c, d⟩ _ _ h1 h2
    unfold LexLt at h1 h2
    simp only at h1 h2
    exfalso
    omega

theorem filterMap_window {α : Type} {r R : Nat} (h : r ≤ R) (f : Int × Int → Option α)
    (hf : ∀ uv, ¬ (uv.1.natAbs ≤ r ∧ uv.2.natAbs ≤ r) → f uv = none) :
    (window R).filterMap f = (window r).filterMap f := by
  rw [← window_filter h, List.filterMap_filter]
  apply List.filterMap_congr
  intro uv _
  by_cases hc : uv.1.natAbs ≤ r ∧ uv.2.natAbs ≤ r
  · simp [hc]
  · simp [hf uv hc, hc]

/-- The radius of the search window does not matter. -/
theorem targetsF_eq (H : RoundsNearest fl) {h w : Nat} (hh : h ≤ 2 ^ 17) (hw : w ≤ 2 ^ 17) {md : ℚ} (hmd : 0 ≤ md)
    {p : Pix} (hp : p.1 < w ∧ p.2 < h) : targetsF fl h w md p = targets h w (fl (md * md)) p := by
  unfold targetsF targets
  have key : ∀ a b : Int, ((a * a + b * b : Int) : ℚ) ≤ fl (md * md) → a.natAbs ≤ 2 ^ 17 → b.natAbs ≤ 2 ^ 17 →
      a.natAbs ≤ radiusF md := by
    intro a b hab ha hb
    by_contra hc
    push Not at hc
    have h1 : md ≤ ((a.natAbs - 1 : Nat) : ℚ) := by
      have : ⌈md⌉ ≤ ((a.natAbs - 1 : Nat) : ℤ) := by
        unfold radiusF at hc
        omega
      have := Int.ceil_le.mp this
      exact_mod_cast this
    generalize hn : a.natAbs - 1 = n at h1
    have h2 : md * md ≤ ((n * n : Nat) : ℚ) := by
      push_cast
      exact mul_le_mul h1 h1 hmd (by positivity)
    have h3 : fl (md * md) ≤ ((n * n : Nat) : ℚ) := by
      rw [← H.nat (n * n) (by
        have : n ≤ 2 ^ 17 := by omega
        calc n * n ≤ 2 ^ 17 * 2 ^ 17 := Nat.mul_le_mul this this
          _ ≤ 2 ^ 53 := by norm_num)]
      exact H.mono h2
    have h4 : ((a * a + b * b : Int) : ℚ) ≤ ((n * n : Nat) : ℚ) := hab.trans h3
    have h5 : a * a + b * b ≤ ((n * n : Nat) : Int) := by
      have : ((a * a + b * b : Int) : ℚ) ≤ (((n * n : Nat) : Int) : ℚ) := by
        rw [Int.cast_natCast]; exact h4
      exact_mod_cast this
    have h6 : a * a = ((a.natAbs * a.natAbs : Nat) : Int) := by push_cast; simp
    have h7 : 0 ≤ b * b := mul_self_nonneg b
    have h8 : a.natAbs = n + 1 := by omega
    rw [h6, h8] at h5
    push_cast at h5
    nlinarith
  have key2 : ∀ a b : Int, ((a * a + b * b : Int) : ℚ) ≤ fl (md * md) → a.natAbs ≤ ceilSqrt (fl (md * md)) := by
    intro a b hab
    by_contra hc
    push Not at hc
    have h1 := (ceilSqrt_le_iff (fl (md * md)) _).mp (le_refl _)
    generalize ceilSqrt (fl (md * md)) = n at *
    have h4 : ((a * a + b * b : Int) : ℚ) ≤ ((n * n : Nat) : ℚ) := hab.trans h1
    have h5 : a * a + b * b ≤ ((n * n : Nat) : Int) := by
      have : ((a * a + b * b : Int) : ℚ) ≤ (((n * n : Nat) : Int) : ℚ) := by
        rw [Int.cast_natCast]; exact h4
      exact_mod_cast this
    have h6 : a * a = ((a.natAbs * a.natAbs : Nat) : Int) := by push_cast; simp
    have h7 : 0 ≤ b * b := mul_self_nonneg b
    rw [h6] at h5
    push_cast at h5
    have h8 : ((n : Int) + 1) ≤ a.natAbs := by exact_mod_cast hc
    nlinarith
  have hnone : ∀ (r : Nat), (∀ u v : Int, ((u * u + v * v : Int) : ℚ) ≤ fl (md * md) →
        u.natAbs ≤ 2 ^ 17 → v.natAbs ≤ 2 ^ 17 → u.natAbs ≤ r ∧ v.natAbs ≤ r) →
      ∀ uv : Int × Int, ¬ (uv.1.natAbs ≤ r ∧ uv.2.natAbs ≤ r) →
      (if ((uv.1 * uv.1 + uv.2 * uv.2 : Int) : ℚ) > fl (md * md) then (none : Option Pix)
        else if (p.1 : Int) + uv.1 < 0 ∨ (p.1 : Int) + uv.1 ≥ w then none
        else if (p.2 : Int) + uv.2 < 0 ∨ (p.2 : Int) + uv.2 ≥ h then none
        else some (((p.1 : Int) + uv.1).toNat, ((p.2 : Int) + uv.2).toNat)) = none := by
    intro r hr uv huv
    split_ifs with h1 h2 h3
    · rfl
    · rfl
    · rfl
    · exact absurd (hr uv.1 uv.2 (not_lt.mp h1) (by omega) (by omega)) huv
  have hr1 : ∀ u v : Int, ((u * u + v * v : Int) : ℚ) ≤ fl (md * md) →
        u.natAbs ≤ 2 ^ 17 → v.natAbs ≤ 2 ^ 17 → u.natAbs ≤ radiusF md ∧ v.natAbs ≤ radiusF md := fun u v h1 h2 h3 =>
    ⟨key u v h1 h2 h3, key v u (by rw [add_comm]; exact h1) h3 h2⟩
  have hr2 : ∀ u v : Int, ((u * u + v * v : Int) : ℚ) ≤ fl (md * md) →
        u.natAbs ≤ 2 ^ 17 → v.natAbs ≤ 2 ^ 17 → u.natAbs ≤ ceilSqrt (fl (md * md)) ∧ v.natAbs ≤ ceilSqrt (fl (md * md)) :=
    fun u v h1 _ _ => ⟨key2 u v h1, key2 v u (by rw [add_comm]; exact h1)⟩
  rw [← filterMap_window (le_max_left (radiusF md) (ceilSqrt (fl (md * md)))) _ (hnone _ hr1),
    ← filterMap_window (le_max_right (radiusF md) (ceilSqrt (fl (md * md)))) _ (hnone _ hr2)]

section
variable {h w : Nat} {md : ℚ} {b1 b2 : BMap}

theorem nodes1F_eq (H : RoundsNearest fl) (hh : h ≤ 2 ^ 17) (hw : w ≤ 2 ^ 17) (hmd : 0 ≤ md) :
    nodes1F fl h w md b1 b2 = nodes1 h w (fl (md * md)) b1 b2 := by
  unfold nodes1F nodes1
  apply List.filter_congr
  intro p hp
  unfold matchable1F matchable1
  rw [targetsF_eq H hh hw hmd (mem_pixels.mp hp)]

theorem matchable2F_eq (H : RoundsNearest fl) (hh : h ≤ 2 ^ 17) (hw : w ≤ 2 ^ 17) (hmd : 0 ≤ md) :
    matchable2F fl h w md b1 b2 = matchable2 h w (fl (md * md)) b1 b2 := by
  funext q
  unfold matchable2F matchable2
  rw [Bool.eq_iff_iff, List.any_eq_true, List.any_eq_true]
  refine exists_congr fun p => and_congr_right fun hp => ?_
  rw [targetsF_eq H hh hw hmd (mem_pixels.mp hp)]

theorem nodes2F_eq (H : RoundsNearest fl) (hh : h ≤ 2 ^ 17) (hw : w ≤ 2 ^ 17) (hmd : 0 ≤ md) :
    nodes2F fl h w md b1 b2 = nodes2 h w (fl (md * md)) b1 b2 := by
  unfold nodes2F nodes2
  rw [matchable2F_eq H hh hw hmd]

theorem realEdgesF_eq (H : RoundsNearest fl) (hh : h ≤ 2 ^ 17) (hw : w ≤ 2 ^ 17) (hmd : 0 ≤ md) :
    realEdgesF fl h w md b1 b2 = realEdges h w (fl (md * md)) b1 b2 := by
  unfold realEdgesF realEdges
  simp only [nodes1F_eq H hh hw hmd, nodes2F_eq H hh hw hmd, matchable2F_eq H hh hw hmd]
  apply List.flatMap_congr
  intro p hp
  have := mem_nodes1.mp hp
  rw [targetsF_eq H hh hw hmd ⟨this.1, this.2.1⟩]

theorem pixDist2_le_size {p q : Pix} (hh : h ≤ 2 ^ 17) (hw : w ≤ 2 ^ 17) (h1 : p.1 < w ∧ p.2 < h) (h2 : q.1 < w ∧ q.2 < h) :
    pixDist2 p q ≤ 2 ^ 35 := by
  unfold pixDist2
  have a : ((p.1 : Int) - q.1).natAbs ≤ 2 ^ 17 := by omega
  have b : ((p.2 : Int) - q.2).natAbs ≤ 2 ^ 17 := by omega
  calc _ ≤ (2 ^ 17) ^ 2 + (2 ^ 17) ^ 2 := by gcongr
    _ = 2 ^ 35 := by norm_num

theorem getD_mem' {α : Type} {l : List α} {i : Nat} {d : α} (h : i < l.length) : l.getD i d ∈ l := by
  rw [List.getD_of_lt _ _ h]; exact List.getElem_mem h

theorem realEdges_size (hh : h ≤ 2 ^ 17) (hw : w ≤ 2 ^ 17) {md2 : ℚ} {e : MEdge} (he : e ∈ realEdges h w md2 b1 b2) :
    e.d2 ≤ 2 ^ 35 := by
  obtain ⟨a, b, c, _⟩ := mem_realEdges.mp he
  have m1 := mem_nodes1.mp (getD_mem' (d := (0, 0)) a)
  have m2 := mem_nodes2.mp (getD_mem' (d := (0, 0)) b)
  rw [c]
  exact pixDist2_le_size hh hw ⟨m1.1, m1.2.1⟩ ⟨m2.1, m2.2.1⟩

end

/-- What has to hold of the rounded tolerance and outlier cost. -/
structure GoodTol (fl sq : ℚ → ℚ) (md oc : ℚ) : Prop where
  nonneg : 0 ≤ md
  lt : md < oc
  lim : fl (md * md) < ((outlierWeightF fl oc : ℚ) / 100) ^ 2
  sqrt_lt : ∀ d2 : Nat, (d2 : ℚ) ≤ fl (md * md) → sq (d2 : ℚ) < oc

theorem outlierWeight_hundredth (n : Nat) : outlierWeight (((n : ℚ) / 100) ^ 2) = n := by
  unfold outlierWeight
  have e : ((n : ℚ) / 100) ^ 2 * ((multiplier * multiplier : Nat) : ℚ) = ((n * n : Nat) : ℚ) := by
    simp only [multiplier]; push_cast; ring
  rw [e]
  apply le_antisymm
  · rw [ceilSqrt_le_iff]
  · have h1 := (ceilSqrt_le_iff ((n * n : Nat) : ℚ) _).mp (le_refl _)
    have h2 : n * n ≤ ceilSqrt ((n * n : Nat) : ℚ) * ceilSqrt ((n * n : Nat) : ℚ) := by exact_mod_cast h1
    exact Nat.mul_self_le_mul_self_iff.mp h2

theorem csaSolveF_valid (fl : ℚ → ℚ) (fuel : Nat) : Valid (csaSolveF fl fuel) := fun _ _ _ hg h =>
  (csaSolveF_perfect hg h).1

/-- With the rows drawn in floating point the graph is one that the exact sampler draws from some other random stream. -/
theorem buildGraphF_draws (H : RoundsNearest fl) (S : SqrtNearest sq) {h w : Nat} (hh : h ≤ 2 ^ 17) (hw : w ≤ 2 ^ 17)
    {lim : ℚ} {b1 b2 : BMap} (small : Nat → Nat → Bool) (n1 n2 ow : Nat) (h1 : n1 ≤ 2 ^ 53) (h2 : n2 ≤ 2 ^ 53)
    (xs : Nat → ℚ) (pos : Nat) (hx : DrawStream xs) :
    ∃ ys : Nat → ℚ, (∀ i, 0 ≤ ys i ∧ ys i < 1) ∧ ∃ p, buildGraphF fl sq small n1 n2 ow (realEdges h w lim b1 b2) xs pos =
      buildGraph n1 n2 ow (realEdges h w lim b1 b2) ys p := by
  obtain ⟨ys, hy, e1, e2, e3⟩ := kRows3_onto
    (kRowsF_ok H small (deg1 n1) (n1 - 1) xs hx (deg1_le n1) ((Nat.sub_le _ _).trans h1) n1 pos)
    (kRowsF_ok H small (deg1 n2) (n2 - 1) xs hx (deg1_le n2) ((Nat.sub_le _ _).trans h2) n2
      (kRowsF fl small (deg1 n1) (n1 - 1) xs n1 pos).2)
    (kRowsF_ok H small (deg3 n1 n2) (min n1 n2) xs hx (deg3_le n1 n2) ((min_le_left _ _).trans h1) (max n1 n2)
      (kRowsF fl small (deg1 n2) (n2 - 1) xs n2 (kRowsF fl small (deg1 n1) (n1 - 1) xs n1 pos).2).2)
  refine ⟨ys, hy, 0, ?_⟩
  unfold buildGraphF buildGraph
  have : (realEdges h w lim b1 b2).map (fun e => (⟨e.i, e.j, weightF fl sq e.d2⟩ : GEdge)) =
      (realEdges h w lim b1 b2).map (fun e => (⟨e.i, e.j, (rint100 e.d2 : Nat)⟩ : GEdge)) :=
    List.map_congr_left fun e he => by rw [weightF_eq H S (realEdges_size hh hw he)]
  simp only [this, e1, e2, e3]

theorem pixels_count {h w : Nat} (hh : h ≤ 2 ^ 17) (hw : w ≤ 2 ^ 17) (p : Pix → Bool) :
    ((pixels h w).filter p).length ≤ 2 ^ 53 := by
  refine (List.length_filter_le _ _).trans ?_
  have hl : (pixels h w).length = w * h := by
    unfold pixels; simp [List.length_flatMap]
  rw [hl]
  calc w * h ≤ 2 ^ 17 * 2 ^ 17 := Nat.mul_le_mul hw hh
    _ ≤ 2 ^ 53 := by norm_num

/-- The matcher in floating point is the exact matcher with the rounded square of the tolerance, the rounded outlier weight
and the floating-point solver. -/
theorem matchEdgeMapsF_eq (H : RoundsNearest fl) (S : SqrtNearest sq) {h w : Nat} (hh : h ≤ 2 ^ 17) (hw : w ≤ 2 ^ 17)
    {md oc : ℚ} (T : GoodTol fl sq md oc) (small : Nat → Nat → Bool) (b1 b2 : BMap) (xs : Nat → ℚ) (pos : Nat)
    (hx : DrawStream xs) :
    ∃ ys : Nat → ℚ, (∀ i, 0 ≤ ys i ∧ ys i < 1) ∧ ∃ p, ∀ fuel, matchEdgeMapsF fl sq small fuel h w b1 b2 md oc xs pos =
      matchWith (csaSolveF fl fuel) h w b1 b2 (fl (md * md)) (((outlierWeightF fl oc : ℚ) / 100) ^ 2) ys p := by
  obtain ⟨ys, hy, p, hg⟩ := buildGraphF_draws H S hh hw (lim := fl (md * md)) (b1 := b1) (b2 := b2) small
    (nodes1 h w (fl (md * md)) b1 b2).length (nodes2 h w (fl (md * md)) b1 b2).length (outlierWeightF fl oc)
    (pixels_count hh hw _) (pixels_count hh hw _) xs pos hx
  refine ⟨ys, hy, p, fun fuel => ?_⟩
  have hl0 : 0 ≤ fl (md * md) := H.nonneg (mul_self_nonneg md)
  unfold matchEdgeMapsF matchWith
  rw [if_neg (not_not.mpr (⟨T.nonneg, T.lt⟩ : 0 ≤ md ∧ md < oc)),
    if_neg (not_not.mpr (⟨hl0, T.lim⟩ : 0 ≤ fl (md * md) ∧ fl (md * md) < ((outlierWeightF fl oc : ℚ) / 100) ^ 2))]
  simp only [nodes1F_eq H hh hw T.nonneg, nodes2F_eq H hh hw T.nonneg, realEdgesF_eq H hh hw T.nonneg]
  have has : (realEdges h w (fl (md * md)) b1 b2).all (fun e => decide (e.i < (nodes1 h w (fl (md * md)) b1 b2).length) &&
      decide (e.j < (nodes2 h w (fl (md * md)) b1 b2).length) && decide (sq (e.d2 : ℚ) < oc)) = true := by
    rw [List.all_eq_true]
    intro e he
    have m := mem_realEdges.mp he
    simp only [Bool.and_eq_true, decide_eq_true_eq]
    exact ⟨⟨m.1, m.2.1⟩, T.sqrt_lt _ m.2.2.2⟩
  rw [if_neg (not_not.mpr has), if_neg (not_not.mpr (asserts_pre hl0 T.lim))]
  have how : ceilSqrt (((outlierWeightF fl oc : ℚ) / 100) ^ 2 * ((multiplier * multiplier : Nat) : ℚ)) = outlierWeightF fl oc :=
    outlierWeight_hundredth _
  rw [how, hg]
  split
  · rfl
  split
  · rfl
  have hsol : ∀ sol : List GEdge, sol.all (solutionOkF fl sq ((nodes1 h w (fl (md * md)) b1 b2).length +
        (nodes2 h w (fl (md * md)) b1 b2).length) (nodes1 h w (fl (md * md)) b1 b2) (nodes2 h w (fl (md * md)) b1 b2)) =
      sol.all (solutionOk ((nodes1 h w (fl (md * md)) b1 b2).length +
        (nodes2 h w (fl (md * md)) b1 b2).length) (nodes1 h w (fl (md * md)) b1 b2) (nodes2 h w (fl (md * md)) b1 b2)) := by
    intro sol
    congr 1
    funext e
    unfold solutionOkF solutionOk
    by_cases a : (nodes1 h w (fl (md * md)) b1 b2).length ≤ e.i
    · simp [a]
    by_cases b : (nodes2 h w (fl (md * md)) b1 b2).length ≤ e.j
    · simp [b]
    have m1 := mem_nodes1.mp (getD_mem' (d := (0, 0)) (not_le.mp a))
    have m2 := mem_nodes2.mp (getD_mem' (d := (0, 0)) (not_le.mp b))
    rw [weightF_eq H S (pixDist2_le_size hh hw ⟨m1.1, m1.2.1⟩ ⟨m2.1, m2.2.1⟩)]
  generalize csaSolveF fl fuel _ _ = res
  cases res with
  | none => rfl
  | some out => simp only [hsol]

end EdgeEval
