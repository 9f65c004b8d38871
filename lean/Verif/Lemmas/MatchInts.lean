import Verif.Model.MatchInts
import Verif.Spec.Int32
import Verif.Lemmas.MatchMain

/-!
# All `int` values of a call fit
-/

namespace EdgeEval

theorem fits_of_natAbs {z : ℤ} (h : z.natAbs < 2 ^ 31) : FitsInt z := by
  unfold FitsInt; omega

theorem sq_le {a : ℤ} {B : Nat} (h : a.natAbs ≤ B) : 0 ≤ a * a ∧ a * a ≤ (B : ℤ) * B := by
  refine ⟨mul_self_nonneg a, ?_⟩
  have h1 : ((a.natAbs * a.natAbs : Nat) : ℤ) = a * a := Int.natAbs_mul_self
  rw [← h1]
  exact_mod_cast Nat.mul_le_mul h h

theorem sq_fits {a b : ℤ} (ha : a.natAbs ≤ 32766) (hb : b.natAbs ≤ 32766) :
    FitsInt (a * a) ∧ FitsInt (b * b) ∧ FitsInt (a * a + b * b) := by
  have h1 := sq_le ha
  have h2 := sq_le hb
  unfold FitsInt
  push_cast at h1 h2
  refine ⟨⟨?_, ?_⟩, ⟨?_, ?_⟩, ?_, ?_⟩ <;> omega

theorem index_fits {h w x y : Nat} (hh : h ≤ 32767) (hw : w ≤ 32767) (hx : x < w) (hy : y < h) :
    FitsInt ((x : ℤ) * h) ∧ FitsInt ((x : ℤ) * h + y) ∧ FitsInt ((x : ℤ) * h + y + 1) := by
  have h1 : x * h ≤ 32766 * 32767 := Nat.mul_le_mul (by omega) hh
  have h2 : ((x * h : Nat) : ℤ) = (x : ℤ) * h := by push_cast; ring
  rw [← h2]
  unfold FitsInt
  refine ⟨⟨?_, ?_⟩, ⟨?_, ?_⟩, ?_, ?_⟩ <;> omega

theorem pyxInts_fit {rows cols : Nat} (hr : rows ≤ 32767) (hc : cols ≤ 32767) : ∀ z ∈ pyxInts rows cols, FitsInt z := by
  have h1 := sq_le (a := (rows : ℤ)) (B := 32767) (by omega)
  have h2 := sq_le (a := (cols : ℤ)) (B := 32767) (by omega)
  push_cast at h1 h2
  intro z hz
  simp only [pyxInts, List.mem_cons, List.not_mem_nil, or_false] at hz
  unfold FitsInt
  rcases hz with rfl | rfl | rfl | rfl | rfl <;> constructor <;> omega

theorem arrayInts_fit {h w : Nat} (hh : h ≤ 32767) (hw : w ≤ 32767) : ∀ z ∈ arrayInts h w, FitsInt z := by
  intro z hz
  simp only [arrayInts, List.mem_append, List.mem_cons, List.not_mem_nil, or_false, List.mem_flatMap] at hz
  rcases hz with (rfl | rfl | rfl) | ⟨p, hp, rfl | rfl⟩
  · unfold FitsInt; omega
  · unfold FitsInt; omega
  · have h1 : h * w ≤ 32767 * 32767 := Nat.mul_le_mul hh hw
    have h2 : ((h * w : Nat) : ℤ) = (h : ℤ) * w := by push_cast; ring
    rw [← h2]
    unfold FitsInt; omega
  · have := mem_pixels.mp hp
    exact (index_fits hh hw this.1 this.2).1
  · have := mem_pixels.mp hp
    exact (index_fits hh hw this.1 this.2).2.1

theorem windowInts_fit {h w r : Nat} (hh : h ≤ 32767) (hw : w ≤ 32767) (hr : r ≤ 32766) :
    ∀ z ∈ windowInts h w r, FitsInt z := by
  intro z hz
  simp only [windowInts, List.mem_append, List.mem_cons, List.not_mem_nil, or_false, List.mem_flatMap] at hz
  rcases hz with (rfl | rfl | rfl) | ⟨p, hp, uv, huv, hz⟩
  · unfold FitsInt; omega
  · unfold FitsInt; omega
  · unfold FitsInt; omega
  · have h1 := mem_pixels.mp hp
    have h2 := mem_window.mp huv
    have h3 := sq_fits (h2.1.trans hr) (h2.2.trans hr)
    rcases hz with rfl | rfl | rfl | rfl | rfl | rfl | rfl
    · unfold FitsInt; omega
    · unfold FitsInt; omega
    · exact h3.1
    · exact h3.2.1
    · exact h3.2.2
    · unfold FitsInt; omega
    · unfold FitsInt; omega

theorem deg_mul_le (d n : Nat) (h : d ≤ 6) : d * n ≤ 6 * n := Nat.mul_le_mul_right _ h

theorem deg1_le_six (n : Nat) : deg1 n ≤ 6 := by unfold deg1 degree; omega
theorem deg3_le_six (n1 n2 : Nat) : deg3 n1 n2 ≤ 6 := by unfold deg3 degree; omega

theorem announcedM_le (n1 n2 ne : Nat) : announcedM n1 n2 ne ≤ ne + 13 * (n1 + n2) := by
  unfold announcedM
  have h1 := deg_mul_le _ n1 (deg1_le_six n1)
  have h2 := deg_mul_le _ n2 (deg1_le_six n2)
  have h3 := deg_mul_le _ (max n1 n2) (deg3_le_six n1 n2)
  omega

theorem countInts_fit {n1 n2 ne : Nat} (h : 3 * (ne + 13 * (n1 + n2)) < 2 ^ 32) :
    ∀ z ∈ countInts n1 n2 ne, FitsInt z := by
  have h1 := deg_mul_le _ n1 (deg1_le_six n1)
  have h2 := deg_mul_le _ n2 (deg1_le_six n2)
  have h3 := deg_mul_le _ (max n1 n2) (deg3_le_six n1 n2)
  have h4 := announcedM_le n1 n2 ne
  have e1 : ((deg1 n1 : Nat) : ℤ) * n1 = ((deg1 n1 * n1 : Nat) : ℤ) := by push_cast; ring
  have e2 : ((deg1 n2 : Nat) : ℤ) * n2 = ((deg1 n2 * n2 : Nat) : ℤ) := by push_cast; ring
  have e3 : ((deg3 n1 n2 : Nat) : ℤ) * (max n1 n2 : Nat) = ((deg3 n1 n2 * max n1 n2 : Nat) : ℤ) := by push_cast; ring
  intro z hz
  simp only [countInts, e1, e2, e3, List.mem_cons, List.not_mem_nil, or_false] at hz
  generalize deg1 n1 * n1 = a at *
  generalize deg1 n2 * n2 = b at *
  generalize deg3 n1 n2 * max n1 n2 = c at *
  generalize announcedM n1 n2 ne = m at *
  unfold FitsInt
  rcases hz with rfl | rfl | rfl | rfl | rfl | rfl | rfl | rfl | rfl | rfl | rfl | rfl | rfl | rfl <;> constructor <;> omega

theorem rint100_le (d2 : Nat) (B : Nat) (h : d2 ≤ B * B) : rint100 d2 ≤ 100 * B + 1 := by
  have h1 : Nat.sqrt (10000 * d2) ≤ 100 * B := by
    have : 10000 * d2 < (100 * B + 1) * (100 * B + 1) := by nlinarith
    have := Nat.sqrt_lt.mpr this
    omega
  unfold rint100
  simp only
  split <;> omega

theorem pixDist2_le {h w B : Nat} {p q : Pix} (hh : h ≤ B + 1) (hw : w ≤ B + 1) (h1 : p.1 < w ∧ p.2 < h) (h2 : q.1 < w ∧ q.2 < h) :
    pixDist2 p q ≤ B * B + B * B := by
  unfold pixDist2
  have a : ((p.1 : Int) - q.1).natAbs ≤ B := by omega
  have b : ((p.2 : Int) - q.2).natAbs ≤ B := by omega
  calc _ ≤ B ^ 2 + B ^ 2 := by gcongr
    _ = _ := by ring

theorem length_window (r : Nat) : (window r).length = (2 * r + 1) * (2 * r + 1) := by
  simp [window, List.length_flatMap, List.map_const']

theorem length_realEdges (h w : Nat) (lim : ℚ) (b1 b2 : BMap) :
    (realEdges h w lim b1 b2).length ≤
      (nodes1 h w lim b1 b2).length * ((2 * ceilSqrt lim + 1) * (2 * ceilSqrt lim + 1)) := by
  unfold realEdges
  simp only [List.length_flatMap, List.length_map]
  have : ∀ l : List Pix, (l.map fun p => ((targets h w lim p).filter (matchable2 h w lim b1 b2)).length).sum ≤
      l.length * ((2 * ceilSqrt lim + 1) * (2 * ceilSqrt lim + 1)) := by
    intro l
    induction l with
    | nil => simp
    | cons p l ih =>
      have h1 : ((targets h w lim p).filter (matchable2 h w lim b1 b2)).length ≤
          (2 * ceilSqrt lim + 1) * (2 * ceilSqrt lim + 1) := by
        refine (List.length_filter_le ..).trans ?_
        rw [← length_window]
        exact List.length_filterMap_le ..
      rw [List.map_cons, List.sum_cons, List.length_cons]
      calc _ ≤ _ := Nat.add_le_add h1 ih
        _ = _ := by ring
  exact this _

theorem length_nodes1 (h w : Nat) (lim : ℚ) (b1 b2 : BMap) : (nodes1 h w lim b1 b2).length ≤ h * w := by
  refine (List.length_filter_le ..).trans ?_
  simp [pixels, List.length_flatMap, List.map_const', Nat.mul_comm]

theorem matchUnsigned_fit {n m : Nat} (hn : 3 * n < 2 ^ 32) (hm : 3 * m < 2 ^ 32) :
    ∀ k ∈ matchUnsigned n m, FitsUnsigned k := by
  intro k hk
  simp only [matchUnsigned, List.mem_append, List.mem_cons, List.not_mem_nil, or_false, List.mem_flatMap,
    List.mem_range] at hk
  unfold FitsUnsigned
  rcases hk with ((rfl | rfl) | ⟨i, hi, rfl | rfl | rfl⟩) | ⟨i, hi, rfl | rfl | rfl⟩ <;> omega

section
variable {h w : Nat} {b1 b2 : BMap} {lim : ℚ} {xs : Nat → ℚ} {pos ow : Nat}

theorem kind_cost {n1 n2 ow : Nat} {edges : List MEdge} {e : GEdge} (hk : EdgeKind n1 n2 ow edges e)
    (how : ow * 100 < 2 ^ 31) (hw : ∀ me ∈ edges, rint100 me.d2 < 2 ^ 31) : FitsInt e.c := by
  unfold FitsInt
  cases hk with
  | real me h he => subst he; have := hw me h; simp only; omega
  | out1 i j hi hj hne he => subst he; simp only; omega
  | out2 i j hi hj hne he => subst he; simp only; omega
  | oo i j hi hj he => subst he; simp only; omega
  | ov1 i hi he => subst he; simp only [multiplier]; omega
  | ov2 i hi he => subst he; simp only [multiplier]; omega

theorem real_weight (hh : h ≤ 32767) (hw : w ≤ 32767) : ∀ me ∈ realEdges h w lim b1 b2, rint100 me.d2 < 2 ^ 31 := by
  intro me hme
  obtain ⟨a, b, c, _⟩ := mem_realEdges.mp hme
  have m1 := mem_nodes1.mp (getD_mem a)
  have m2 := mem_nodes2.mp (getD_mem b)
  have h1 := pixDist2_le (B := 32766) hh hw ⟨m1.1, m1.2.1⟩ ⟨m2.1, m2.2.1⟩
  rw [← c] at h1
  have h2 := rint100_le me.d2 50000 (by omega)
  omega

theorem partnerInts_fit (hh : h ≤ 32767) (hw : w ≤ 32767) (m : Pix → Option Pix)
    (hm : ∀ p q, m p = some q → q.1 < w ∧ q.2 < h) : ∀ z ∈ partnerInts h w m, FitsInt z := by
  intro z hz
  unfold partnerInts at hz
  obtain ⟨p, hp, hz⟩ := List.mem_flatMap.mp hz
  have hpp := mem_pixels.mp hp
  rcases hq : m p with _ | q
  · rw [hq] at hz; simp at hz
  · rw [hq] at hz
    have hqq := hm p q hq
    have h1 := index_fits hh hw hqq.1 hqq.2
    have h2 := sq_fits (a := (p.1 : ℤ) - q.1) (b := (p.2 : ℤ) - q.2) (by omega) (by omega)
    simp only [List.mem_cons, List.not_mem_nil, or_false] at hz
    rcases hz with rfl | rfl | rfl | rfl | rfl | rfl | rfl | rfl
    · exact h1.1
    · exact h1.2.1
    · exact h1.2.2
    · unfold FitsInt; omega
    · unfold FitsInt; omega
    · exact h2.1
    · exact h2.2.1
    · exact h2.2.2

/-- Everything `match.cc` computes in `int` and `unsigned` fits. -/
theorem matchInts_fit (hx : Props.UnitStream xs) (hh : h ≤ 32767) (hw : w ≤ 32767) {r : Nat} (hr : r ≤ 32766)
    (how : ow * 100 < 2 ^ 31) {R E0 E1 : Nat} (hR : ceilSqrt lim ≤ R) (h0 : (nodes1 h w lim b1 b2).length ≤ E0)
    (h1 : (nodes2 h w lim b1 b2).length ≤ E1)
    (hsz : 3 * (E0 * ((2 * R + 1) * (2 * R + 1)) + 13 * (E0 + E1)) < 2 ^ 32) (wt : Nat → ℤ)
    (hwt : ∀ d, d ≤ 2 ^ 35 → wt d = (rint100 d : Nat)) :
    (∀ z ∈ preInts h w r (nodes1 h w lim b1 b2) (nodes2 h w lim b1 b2) (realEdges h w lim b1 b2).length ow
      (buildGraph (nodes1 h w lim b1 b2).length (nodes2 h w lim b1 b2).length ow (realEdges h w lim b1 b2) xs pos),
      FitsInt z) ∧
    (∀ k ∈ matchUnsigned ((nodes1 h w lim b1 b2).length + (nodes2 h w lim b1 b2).length)
      (announcedM (nodes1 h w lim b1 b2).length (nodes2 h w lim b1 b2).length (realEdges h w lim b1 b2).length),
      FitsUnsigned k) ∧
    ∀ out, IsPerfectMatching ((nodes1 h w lim b1 b2).length + (nodes2 h w lim b1 b2).length)
      ((buildGraph (nodes1 h w lim b1 b2).length (nodes2 h w lim b1 b2).length ow (realEdges h w lim b1 b2) xs pos).map
        (toArc ((nodes1 h w lim b1 b2).length + (nodes2 h w lim b1 b2).length))) out →
      ∀ z ∈ postInts h w (nodes1 h w lim b1 b2) (nodes2 h w lim b1 b2) wt out, FitsInt z := by
  have hE : (realEdges h w lim b1 b2).length ≤ E0 * ((2 * R + 1) * (2 * R + 1)) := by
    refine (length_realEdges ..).trans ?_
    gcongr
  have hne : 3 * ((realEdges h w lim b1 b2).length +
      13 * ((nodes1 h w lim b1 b2).length + (nodes2 h w lim b1 b2).length)) < 2 ^ 32 := by omega
  have hM := announcedM_le (nodes1 h w lim b1 b2).length (nodes2 h w lim b1 b2).length (realEdges h w lim b1 b2).length
  have hkind : ∀ e ∈ buildGraph (nodes1 h w lim b1 b2).length (nodes2 h w lim b1 b2).length ow (realEdges h w lim b1 b2) xs pos,
      e.i < (nodes1 h w lim b1 b2).length + (nodes2 h w lim b1 b2).length ∧
      e.j < (nodes1 h w lim b1 b2).length + (nodes2 h w lim b1 b2).length ∧ FitsInt e.c := by
    intro e he
    have hk := buildGraph_kind hx he
    have := hk.range realEdges_range
    exact ⟨this.1, this.2.1, kind_cost hk how (real_weight hh hw)⟩
  refine ⟨?_, matchUnsigned_fit (by omega) (by omega), ?_⟩
  · intro z hz
    unfold preInts at hz
    simp only [List.mem_append] at hz
    rcases hz with ((hz | hz) | hz) | hz
    · exact arrayInts_fit hh hw z hz
    · exact windowInts_fit hh hw hr z hz
    · exact countInts_fit hne z hz
    · simp only [graphInts, List.mem_append, List.mem_cons, List.not_mem_nil, or_false, List.mem_flatMap] at hz
      rcases hz with (rfl | rfl | rfl) | ⟨e, he, hz⟩
      · unfold FitsInt; omega
      · unfold FitsInt; simp only [multiplier]; omega
      · unfold FitsInt; omega
      · have := hkind e he
        rcases hz with rfl | rfl | rfl | rfl | rfl
        · unfold FitsInt; omega
        · unfold FitsInt; omega
        · exact this.2.2
        · unfold FitsInt; omega
        · unfold FitsInt; omega
  · intro out hm z hz
    obtain ⟨s1, s2, s3, _, s5⟩ := sol_of_matching hm
    unfold postInts at hz
    simp only [List.mem_append] at hz
    rcases hz with (hz | hz) | hz
    · simp only [solutionInts, List.mem_append, List.mem_cons, List.not_mem_nil, or_false, List.mem_flatMap] at hz
      obtain ⟨a, ha, hz⟩ := hz
      obtain ⟨e, he, rfl⟩ := List.mem_map.mp (hm.1 a ha)
      have hk := hkind e he
      rw [ofArc_toArc] at hz
      rcases hz with (rfl | rfl | rfl | rfl | rfl | rfl) | hz
      · simp only [toArc]; unfold FitsInt; omega
      · simp only [toArc]; unfold FitsInt; omega
      · exact hk.2.2
      · simp only [toArc]; unfold FitsInt; omega
      · simp only [toArc]; unfold FitsInt; omega
      · simp only [toArc]; unfold FitsInt; omega
      · split at hz
        · rename_i hreal
          have m1 := mem_nodes1.mp (getD_mem hreal.1)
          have m2 := mem_nodes2.mp (getD_mem hreal.2)
          generalize (nodes1 h w lim b1 b2).getD e.i (0, 0) = p at *
          generalize (nodes2 h w lim b1 b2).getD e.j (0, 0) = q at *
          have h2 := sq_fits (a := (p.1 : ℤ) - q.1) (b := (p.2 : ℤ) - q.2) (by omega) (by omega)
          simp only [List.mem_cons, List.not_mem_nil, or_false] at hz
          rcases hz with rfl | rfl | rfl | rfl | rfl | rfl
          · unfold FitsInt; omega
          · unfold FitsInt; omega
          · exact h2.1
          · exact h2.2.1
          · exact h2.2.2
          · have h1 := pixDist2_le (B := 32766) hh hw ⟨m1.1, m1.2.1⟩ ⟨m2.1, m2.2.1⟩
            have h2 := rint100_le (pixDist2 p q) 50000 (by omega)
            rw [hwt _ (by omega)]
            unfold FitsInt; omega
        · simp at hz
    · refine partnerInts_fit hh hw _ ?_ z hz
      intro p q hpq
      rw [recordMatch_m1 (nodup_nodes1 ..) _ (s2.nodup_iff.mpr List.nodup_range)] at hpq
      rcases hpq with ⟨e, _, hp⟩ | ⟨hp, _⟩
      · have := mem_nodes2.mp (getD_mem hp.2.1)
        rw [hp.2.2.2] at this
        exact ⟨this.1, this.2.1⟩
      · cases hp
    · refine partnerInts_fit hh hw _ ?_ z hz
      intro q p hpq
      rw [recordMatch_m2 (nodup_nodes2 ..) _ (s3.nodup_iff.mpr List.nodup_range)] at hpq
      rcases hpq with ⟨e, _, hp⟩ | ⟨hp, _⟩
      · have := mem_nodes1.mp (getD_mem hp.1)
        rw [hp.2.2.1] at this
        exact ⟨this.1, this.2.1⟩
      · cases hp

end

end EdgeEval
