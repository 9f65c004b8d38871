import Verif.Lemmas.SortSel

/-! A larger budget does not change a result. -/

namespace EdgeEval.Sort

variable {α β γ : Type}

/-- `m'` returns whatever `m` returns. -/
def Le (m m' : Except Fault β) : Prop := ∀ b, m = .ok b → m' = .ok b

theorem Le.refl (m : Except Fault β) : Le m m := fun _ h => h

theorem Le.bind {m m' : Except Fault β} {k k' : β → Except Fault γ} (h : Le m m') (hk : ∀ b, Le (k b) (k' b)) :
    Le (m >>= k) (m' >>= k') := by
  intro c hc
  cases m with
  | error e => simp [Bind.bind, Except.bind] at hc
  | ok b =>
    rw [h b rfl]
    exact hk b c hc

theorem Le.ite {p : Prop} [Decidable p] {m m' k k' : Except Fault β} (h : p → Le m m') (hk : ¬ p → Le k k') :
    Le (if p then m else k) (if p then m' else k') := by
  split_ifs with hp
  · exact h hp
  · exact hk hp

theorem insInner_mono (cmp : α → α → ℤ) (start : ℤ) {f f' : Nat} (hf : f ≤ f') (j : ℤ) (a : Arr α) :
    Le (insInner cmp start f j a) (insInner cmp start f' j a) := by
  induction f generalizing f' j a with
  | zero => intro b hb; simp [insInner] at hb
  | succ f ih =>
    obtain ⟨g, rfl⟩ : ∃ g, f' = g + 1 := ⟨f' - 1, by omega⟩
    simp only [insInner]
    refine Le.ite (fun _ => (Le.refl _).bind fun c => Le.ite (fun _ => Le.refl _) fun _ => (Le.refl _).bind fun a' => ih (by omega) _ _)
      fun _ => Le.refl _

theorem forUp_mono {σ : Type} {body body' : ℤ → σ → Except Fault σ} (h : ∀ i s, Le (body i s) (body' i s)) (k : Nat) (i : ℤ) (s : σ) :
    Le (forUp body k i s) (forUp body' k i s) := by
  induction k generalizing i s with
  | zero => exact Le.refl _
  | succ k ih => exact (h i s).bind fun s' => ih _ _

theorem scanLeft_mono (cmp : α → α → ℤ) {f f' : Nat} (hf : f ≤ f') (s : Part α) : Le (scanLeft cmp f s) (scanLeft cmp f' s) := by
  induction f generalizing f' s with
  | zero => intro b hb; simp [scanLeft] at hb
  | succ f ih =>
    obtain ⟨g, rfl⟩ : ∃ g, f' = g + 1 := ⟨f' - 1, by omega⟩
    simp only [scanLeft]
    exact Le.ite (fun _ => (Le.refl _).bind fun c => Le.ite (fun _ => Le.refl _) fun _ => Le.ite (fun _ => ih (by omega) _)
      fun _ => (Le.refl _).bind fun a' => ih (by omega) _) fun _ => Le.refl _

theorem scanRight_mono (cmp : α → α → ℤ) {f f' : Nat} (hf : f ≤ f') (s : Part α) : Le (scanRight cmp f s) (scanRight cmp f' s) := by
  induction f generalizing f' s with
  | zero => intro b hb; simp [scanRight] at hb
  | succ f ih =>
    obtain ⟨g, rfl⟩ : ∃ g, f' = g + 1 := ⟨f' - 1, by omega⟩
    simp only [scanRight]
    exact Le.ite (fun _ => (Le.refl _).bind fun c => Le.ite (fun _ => Le.refl _) fun _ => Le.ite (fun _ => ih (by omega) _)
      fun _ => Le.refl _) fun _ => Le.refl _

theorem partLoop_mono (cmp : α → α → ℤ) {F F' f f' : Nat} (hF : F ≤ F') (hf : f ≤ f') (s : Part α) :
    Le (partLoop F cmp f s) (partLoop F' cmp f' s) := by
  induction f generalizing f' s with
  | zero => intro b hb; simp [partLoop] at hb
  | succ f ih =>
    obtain ⟨g, rfl⟩ : ∃ g, f' = g + 1 := ⟨f' - 1, by omega⟩
    simp only [partLoop]
    refine (scanLeft_mono cmp hF s).bind fun s' => (scanRight_mono cmp hF s').bind fun t => ?_
    obtain ⟨b, u⟩ := t
    exact Le.ite (fun _ => ih (by omega) _) fun _ => Le.ite (fun _ => Le.refl _) fun _ => (Le.refl _).bind fun a => ih (by omega) _

theorem quickSort_mono (cmp : α → α → ℤ) {F F' f f' : Nat} (hF : F ≤ F') (hf : f ≤ f') (start n : ℤ) (a : Arr α) :
    Le (quickSort F cmp f start n a) (quickSort F' cmp f' start n a) := by
  induction f generalizing f' start n a with
  | zero => intro b hb; simp [quickSort] at hb
  | succ f ih =>
    obtain ⟨g, rfl⟩ : ∃ g, f' = g + 1 := ⟨f' - 1, by omega⟩
    simp only [quickSort]
    refine Le.ite (fun _ => forUp_mono (fun i s => insInner_mono cmp start hF _ _) _ _ _) fun _ => ?_
    refine (Le.refl _).bind fun m => (Le.refl _).bind fun a1 => (partLoop_mono cmp hF hF _).bind fun s => ?_
    refine (Le.refl _).bind fun _ => (Le.refl _).bind fun _ => (Le.refl _).bind fun _ => (Le.refl _).bind fun _ => (Le.refl _).bind fun _ => ?_
    exact (Le.refl _).bind fun b => (Le.ite (fun _ => ih (by omega) _ _ _) fun _ => Le.refl _).bind fun c =>
      Le.ite (fun _ => ih (by omega) _ _ _) fun _ => Le.refl _

theorem sort_mono (cmp : α → α → ℤ) {F F' : Nat} (hF : F ≤ F') (a : Arr α) (n : ℤ) : Le (sort F cmp a n) (sort F' cmp a n) :=
  (quickSort_mono cmp hF hF 0 n a).bind fun _ => Le.refl _

end EdgeEval.Sort
