import Verif.Lemmas.NmsFloat

/-!
# The suppression loop and the border ramps in floating point
-/

namespace EdgeEval.NmsFloat

open EdgeEval Spec

variable {fl : ℚ → ℚ}

/-- The value `interp` returns. -/
def sampleF (fl : ℚ → ℚ) (I : Img ℚ) (x y : ℚ) : ℚ :=
  match interp fl I I.rows I.cols x y with
  | .ok v => v
  | .error _ => 0

/-- The image sizes for which `w - 1.001` is meaningful: at least 2, and a C `int`. -/
structure SizeOk (I : Img ℚ) : Prop where
  r2 : 2 ≤ I.rows
  c2 : 2 ≤ I.cols
  rm : I.rows ≤ 2 ^ 31
  cm : I.cols ≤ 2 ^ 31

theorem interp_ok (H : RoundsNearest fl) {I : Img ℚ} (hs : SizeOk I) (x y : ℚ) :
    interp fl I I.rows I.cols x y = .ok (sampleF fl I x y) := by
  obtain ⟨v, hv⟩ := interp_defined H I hs.r2 hs.c2 hs.rm hs.cm x y
  unfold sampleF
  rw [hv]

theorem suppressLoop_eq (test : ℤ → Except PyErr Bool) (P : ℤ → Bool) (h : ∀ d, test d = .ok (P d)) (ds : List ℤ) :
    ∃ b, suppressLoop test ds = .ok b ∧ (b = true ↔ ∃ d ∈ ds, d ≠ 0 ∧ P d = true) := by
  induction ds with
  | nil => exact ⟨false, rfl, by simp⟩
  | cons d ds ih =>
    obtain ⟨b, hb, hiff⟩ := ih
    rw [suppressLoop]
    by_cases h0 : d = 0
    · refine ⟨b, by simp [h0, hb], ?_⟩
      rw [hiff]; simp [h0]
    · rw [if_pos h0, h d]
      cases hP : P d
      · refine ⟨b, hb, ?_⟩
        rw [hiff]; simp [hP]
      · exact ⟨true, rfl, by simp [h0, hP]⟩

/-- The comparison of the code, for some distance. -/
def BeatenF (fl cosF sinF : ℚ → ℚ) (I O : Img ℚ) (r : ℤ) (m : ℚ) (y x : Nat) : Prop :=
  ∃ d : ℤ, d ≠ 0 ∧ |d| ≤ r ∧ fl (I.at_ y x * m) <
    sampleF fl I (fl ((x : ℚ) + fl (d * cosF (O.at_ y x)))) (fl ((y : ℚ) + fl (d * sinF (O.at_ y x))))

open Classical in
theorem nmsPixel_eq (H : RoundsNearest fl) (cosF sinF : ℚ → ℚ) {I : Img ℚ} (hs : SizeOk I) (O : Img ℚ) (r : ℤ) (m : ℚ)
    (y x : ℕ) : nmsPixel fl cosF sinF I O r m y x = .ok (if BeatenF fl cosF sinF I O r m y x then 0 else I.at_ y x) := by
  unfold nmsPixel
  by_cases h0 : I.at_ y x = 0
  · simp [h0]
  · obtain ⟨b, hb, hiff⟩ := suppressLoop_eq (beats fl I (fl (I.at_ y x * m)) (cosF (O.at_ y x)) (sinF (O.at_ y x)) x y)
      (fun d => decide (fl (I.at_ y x * m) < sampleF fl I (fl ((x : ℚ) + fl (d * cosF (O.at_ y x))))
        (fl ((y : ℚ) + fl (d * sinF (O.at_ y x))))))
      (fun d => by unfold beats; rw [interp_ok H hs]) (Nms.offsets r)
    have hB : b = true ↔ BeatenF fl cosF sinF I O r m y x := by
      rw [hiff]
      unfold BeatenF
      simp only [Nms.mem_offsets, decide_eq_true_eq]
      exact ⟨fun ⟨d, h1, h2, h3⟩ => ⟨d, h2, h1, h3⟩, fun ⟨d, h1, h2, h3⟩ => ⟨d, h2, h1, h3⟩⟩
    simp only [h0, if_false, hb]
    by_cases hB' : BeatenF fl cosF sinF I O r m y x
    · simp [hB', hB.2 hB']
    · have : b = false := by
        cases b
        · rfl
        · exact absurd (hB.1 rfl) hB'
      simp [hB', this]

open Classical in
theorem firstPass_eq (H : RoundsNearest fl) (cosF sinF : ℚ → ℚ) {I : Img ℚ} (hs : SizeOk I) (O : Img ℚ) (r : ℤ) (m : ℚ)
    (ps : List (ℕ × ℕ)) (out : ℕ → ℕ → ℚ) :
    ∃ o, firstPass fl cosF sinF I O r m ps out = .ok o ∧ ∀ y x,
      o y x = if (x, y) ∈ ps then (if BeatenF fl cosF sinF I O r m y x then 0 else I.at_ y x) else out y x := by
  induction ps generalizing out with
  | nil => exact ⟨out, rfl, by simp⟩
  | cons p ps ih =>
    rw [firstPass, nmsPixel_eq H cosF sinF hs]
    obtain ⟨o, ho, hv⟩ := ih (setCell out p.2 p.1 (if BeatenF fl cosF sinF I O r m p.2 p.1 then 0 else I.at_ p.2 p.1))
    refine ⟨o, ho, fun y x => ?_⟩
    rw [hv]
    by_cases hm : (x, y) ∈ ps
    · simp [hm]
    · by_cases hp : (x, y) = p
      · subst hp; simp [hm, setCell]
      · have hne : ¬ (y = p.2 ∧ x = p.1) := by
          rintro ⟨rfl, rfl⟩; exact hp rfl
        simp [hm, hp, setCell, hne]

/-! ### Ramps -/

/-- A loop over pairs of cells, none of them the given one. -/
theorem fold_untouched (g : ℕ × ℕ → (ℕ × ℕ) × (ℕ × ℕ)) (f : ℕ × ℕ → ℕ) (s : ℕ) (ps : List (ℕ × ℕ)) (out : ℕ → ℕ → ℚ)
    (y x : ℕ) (h : ∀ p ∈ ps, (g p).1 ≠ (y, x) ∧ (g p).2 ≠ (y, x)) :
    (ps.foldl (fun o p => mulCell fl (mulCell fl o (g p).1.1 (g p).1.2 (f p) s) (g p).2.1 (g p).2.2 (f p) s) out) y x
      = out y x := by
  induction ps generalizing out with
  | nil => rfl
  | cons p ps ih =>
    rw [List.foldl_cons, ih _ fun p' hp' => h p' (List.mem_cons_of_mem _ hp')]
    obtain ⟨h1, h2⟩ := h p List.mem_cons_self
    have e1 : ¬ (y = (g p).1.1 ∧ x = (g p).1.2) := fun hc => h1 (Prod.ext hc.1.symm hc.2.symm)
    have e2 : ¬ (y = (g p).2.1 ∧ x = (g p).2.2) := fun hc => h2 (Prod.ext hc.1.symm hc.2.symm)
    unfold mulCell setCell
    rw [if_neg e2, if_neg e1]

/-- A loop over pairs of cells that meets the given one exactly once. -/
theorem fold_once (g : ℕ × ℕ → (ℕ × ℕ) × (ℕ × ℕ)) (f : ℕ × ℕ → ℕ) (s : ℕ) (ps : List (ℕ × ℕ)) (out : ℕ → ℕ → ℚ)
    (y x : ℕ) (hn : ps.Nodup) (p0 : ℕ × ℕ) (h0 : p0 ∈ ps)
    (hx : ((g p0).1 = (y, x) ∧ (g p0).2 ≠ (y, x)) ∨ ((g p0).1 ≠ (y, x) ∧ (g p0).2 = (y, x)))
    (h : ∀ p ∈ ps, p ≠ p0 → (g p).1 ≠ (y, x) ∧ (g p).2 ≠ (y, x)) :
    (ps.foldl (fun o p => mulCell fl (mulCell fl o (g p).1.1 (g p).1.2 (f p) s) (g p).2.1 (g p).2.2 (f p) s) out) y x
      = fl (out y x * fl ((f p0 : ℚ) / s)) := by
  induction ps generalizing out with
  | nil => cases h0
  | cons p ps ih =>
    rw [List.nodup_cons] at hn
    rw [List.foldl_cons]
    rcases eq_or_ne p p0 with rfl | hne
    · rw [fold_untouched g f s ps _ y x fun p' hp' => h p' (List.mem_cons_of_mem _ hp')
        (fun hc => hn.1 (hc ▸ hp'))]
      unfold mulCell setCell
      rcases hx with ⟨a, b⟩ | ⟨a, b⟩
      · have e2 : ¬ (y = (g p).2.1 ∧ x = (g p).2.2) := fun hc => b (Prod.ext hc.1.symm hc.2.symm)
        have e1 : y = (g p).1.1 ∧ x = (g p).1.2 := ⟨(congrArg Prod.fst a).symm, (congrArg Prod.snd a).symm⟩
        rw [if_neg e2, if_pos e1, ← e1.1, ← e1.2]
      · have e1 : ¬ (y = (g p).1.1 ∧ x = (g p).1.2) := fun hc => a (Prod.ext hc.1.symm hc.2.symm)
        have e2 : y = (g p).2.1 ∧ x = (g p).2.2 := ⟨(congrArg Prod.fst b).symm, (congrArg Prod.snd b).symm⟩
        rw [if_pos e2, ← e2.1, ← e2.2, if_neg e1]
    · have hmem : p0 ∈ ps := by
        rcases List.mem_cons.1 h0 with he | he
        · exact absurd he.symm hne
        · exact he
      rw [ih _ hn.2 hmem fun p' hp' => h p' (List.mem_cons_of_mem _ hp')]
      obtain ⟨h1, h2⟩ := h p List.mem_cons_self hne
      have e1 : ¬ (y = (g p).1.1 ∧ x = (g p).1.2) := fun hc => h1 (Prod.ext hc.1.symm hc.2.symm)
      have e2 : ¬ (y = (g p).2.1 ∧ x = (g p).2.2) := fun hc => h2 (Prod.ext hc.1.symm hc.2.symm)
      have : mulCell fl (mulCell fl out (g p).1.1 (g p).1.2 (f p) s) (g p).2.1 (g p).2.2 (f p) s y x = out y x := by
        unfold mulCell setCell
        rw [if_neg e2, if_neg e1]
      rw [this]

/-- What happens to a value at index `k` of an axis of length `n`: nothing at distance at least `s` from the ends,
otherwise one multiplication by the rounded quotient of that distance and `s`. -/
def dampF (fl : ℚ → ℚ) (s n k : ℕ) (v : ℚ) : ℚ :=
  if toEnd n k < s then fl (v * fl ((toEnd n k : ℚ) / s)) else v

theorem dampCols_eq {h w s : ℕ} (hs : 2 * s ≤ w) (out : ℕ → ℕ → ℚ) {y x : ℕ} (hy : y < h) (hx : x < w) :
    dampCols fl w s (Nms.loop2 s h) out y x = dampF fl s w x (out y x) := by
  unfold dampCols dampF toEnd
  have conv := fun (p0 : ℕ × ℕ) => fold_once (fl := fl) (fun p => ((p.2, p.1), (p.2, w - 1 - p.1))) (fun p => p.1) s
    (Nms.loop2 s h) out y x (Nms.nodup_loop2 s h) p0
  rcases lt_or_ge x s with h1 | h1
  · rw [if_pos (by omega), min_eq_left (by omega : x ≤ w - 1 - x)]
    refine conv (x, y) (Nms.mem_loop2.2 ⟨h1, hy⟩) (.inl ⟨rfl, ?_⟩) ?_
    · intro he; rw [Prod.mk.injEq] at he; omega
    · intro p hp hne
      obtain ⟨hp1, hp2⟩ := Nms.mem_loop2.1 hp
      constructor
      · intro he; rw [Prod.mk.injEq] at he; exact hne (Prod.ext he.2 he.1)
      · intro he; rw [Prod.mk.injEq] at he; omega
  · rcases lt_or_ge (w - 1 - x) s with h2 | h2
    · rw [if_pos (by omega), min_eq_right (by omega : w - 1 - x ≤ x)]
      refine conv (w - 1 - x, y) (Nms.mem_loop2.2 ⟨h2, hy⟩) (.inr ⟨?_, ?_⟩) ?_
      · intro he; rw [Prod.mk.injEq] at he; omega
      · exact Prod.ext rfl (by simp only; omega)
      · intro p hp hne
        obtain ⟨hp1, hp2⟩ := Nms.mem_loop2.1 hp
        constructor
        · intro he; rw [Prod.mk.injEq] at he; omega
        · intro he
          rw [Prod.mk.injEq] at he
          apply hne
          apply Prod.ext
          · simp only; omega
          · exact he.1
    · rw [if_neg (by omega)]
      refine fold_untouched (fl := fl) (fun p => ((p.2, p.1), (p.2, w - 1 - p.1))) (fun p => p.1) s
        (Nms.loop2 s h) out y x fun p hp => ?_
      obtain ⟨hp1, hp2⟩ := Nms.mem_loop2.1 hp
      constructor
      · intro he; rw [Prod.mk.injEq] at he; omega
      · intro he; rw [Prod.mk.injEq] at he; omega

theorem dampRows_eq {h w s : ℕ} (hs : 2 * s ≤ h) (out : ℕ → ℕ → ℚ) {y x : ℕ} (hy : y < h) (hx : x < w) :
    dampRows fl h s (Nms.loop2 w s) out y x = dampF fl s h y (out y x) := by
  unfold dampRows dampF toEnd
  have conv := fun (p0 : ℕ × ℕ) => fold_once (fl := fl) (fun p => ((p.2, p.1), (h - 1 - p.2, p.1))) (fun p => p.2) s
    (Nms.loop2 w s) out y x (Nms.nodup_loop2 w s) p0
  rcases lt_or_ge y s with h1 | h1
  · rw [if_pos (by omega), min_eq_left (by omega : y ≤ h - 1 - y)]
    refine conv (x, y) (Nms.mem_loop2.2 ⟨hx, h1⟩) (.inl ⟨rfl, ?_⟩) ?_
    · intro he; rw [Prod.mk.injEq] at he; omega
    · intro p hp hne
      obtain ⟨hp1, hp2⟩ := Nms.mem_loop2.1 hp
      constructor
      · intro he; rw [Prod.mk.injEq] at he; exact hne (Prod.ext he.2 he.1)
      · intro he; rw [Prod.mk.injEq] at he; omega
  · rcases lt_or_ge (h - 1 - y) s with h2 | h2
    · rw [if_pos (by omega), min_eq_right (by omega : h - 1 - y ≤ y)]
      refine conv (x, h - 1 - y) (Nms.mem_loop2.2 ⟨hx, h2⟩) (.inr ⟨?_, ?_⟩) ?_
      · intro he; rw [Prod.mk.injEq] at he; omega
      · exact Prod.ext (by simp only; omega) rfl
      · intro p hp hne
        obtain ⟨hp1, hp2⟩ := Nms.mem_loop2.1 hp
        constructor
        · intro he; rw [Prod.mk.injEq] at he; omega
        · intro he
          rw [Prod.mk.injEq] at he
          apply hne
          apply Prod.ext
          · exact he.2
          · simp only; omega
    · rw [if_neg (by omega)]
      refine fold_untouched (fl := fl) (fun p => ((p.2, p.1), (h - 1 - p.2, p.1))) (fun p => p.2) s
        (Nms.loop2 w s) out y x fun p hp => ?_
      obtain ⟨hp1, hp2⟩ := Nms.mem_loop2.1 hp
      constructor
      · intro he; rw [Prod.mk.injEq] at he; omega
      · intro he; rw [Prod.mk.injEq] at he; omega

open Classical in
/-- The whole of `nms` in closed form. -/
theorem nms_eq (H : RoundsNearest fl) (fl32 cosF sinF : ℚ → ℚ) {I : Img ℚ} (hs : SizeOk I) {O : Img ℚ}
    (ho1 : O.rows = I.rows) (ho2 : O.cols = I.cols) (r s : ℤ) (m : ℚ) :
    ∃ out, nms fl fl32 cosF sinF I O r s m = .ok out ∧ out.rows = I.rows ∧ out.cols = I.cols ∧
      ∀ y < I.rows, ∀ x < I.cols, out.at_ y x =
        dampF fl (usedMargin I.rows I.cols s) I.rows y (dampF fl (usedMargin I.rows I.cols s) I.cols x
          (if BeatenF fl cosF sinF I O r (fl32 m) y x then 0 else I.at_ y x)) := by
  obtain ⟨o, ho, hv⟩ := firstPass_eq H cosF sinF hs O r (fl32 m) (Nms.loop2 I.cols I.rows) (fun _ _ => 0)
  have hm : Nms.margin I.rows I.cols s = usedMargin I.rows I.cols s := by
    unfold Nms.margin usedMargin; omega
  have h1 := hs.r2
  have h2 := hs.c2
  unfold nms
  rw [if_neg (by omega), if_neg (by omega), benms, ho]
  refine ⟨_, rfl, rfl, rfl, fun y hy x hx => ?_⟩
  simp only [hm]
  have h1 : 2 * usedMargin I.rows I.cols s ≤ I.cols := by unfold usedMargin; omega
  have h2 : 2 * usedMargin I.rows I.cols s ≤ I.rows := by unfold usedMargin; omega
  rw [dampRows_eq h2 _ hy hx, dampCols_eq h1 _ hy hx, hv, if_pos (Nms.mem_loop2.2 ⟨hx, hy⟩)]

theorem dampF_zero (H : RoundsNearest fl) (s n k : ℕ) : dampF fl s n k 0 = 0 := by
  unfold dampF
  split
  · rw [zero_mul, H.zero]
  · rfl

theorem dampF_bounds (H : RoundsNearest fl) (s n k : ℕ) {v : ℚ} (hv : IsF64 v) (h0 : 0 ≤ v) :
    IsF64 (dampF fl s n k v) ∧ 0 ≤ dampF fl s n k v ∧ dampF fl s n k v ≤ v := by
  unfold dampF
  split
  · rename_i hlt
    have hs : (0 : ℚ) < s := by exact_mod_cast (by omega : 0 < s)
    have hq0 : (0 : ℚ) ≤ (toEnd n k : ℚ) / s := by positivity
    have hq1 : (toEnd n k : ℚ) / s ≤ 1 := by
      rw [div_le_one hs]
      exact_mod_cast hlt.le
    have f0 := H.nonneg hq0
    have f1 := H.le_one hq1
    refine ⟨H.rep _, H.nonneg (mul_nonneg h0 f0), ?_⟩
    have : fl (v * fl ((toEnd n k : ℚ) / s)) ≤ fl v := H.mono (by nlinarith)
    rwa [H.exact hv] at this
  · exact ⟨hv, h0, le_refl _⟩

end EdgeEval.NmsFloat
