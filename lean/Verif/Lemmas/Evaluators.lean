import Mathlib.Algebra.Order.Group.Abs
import Verif.Spec.Protocol

namespace EdgeEval.Evaluators

open Spec

/-! ### dictionaries -/

theorem lookup_nil {α : Type} (k : String) : lookup ([] : Dict α) k = none := rfl

theorem lookup_cons {α : Type} (kv : String × α) (d : Dict α) (k : String) :
    lookup (kv :: d) k = if kv.1 = k then some kv.2 else lookup d k := by
  unfold lookup
  rw [List.find?_cons]
  by_cases h : kv.1 = k <;> simp [h]

theorem lookup_none_of_not_mem {α : Type} {d : Dict α} {k : String} (h : k ∉ d.map Prod.fst) :
    lookup d k = none := by
  induction d with
  | nil => rfl
  | cons kv d ih =>
    rw [List.map_cons, List.mem_cons, not_or] at h
    rw [lookup_cons, if_neg (fun e => h.1 e.symm), ih h.2]

theorem lookup_map {β : Type} (ks : List String) (f : String → β) {k : String} (h : k ∈ ks) :
    lookup (ks.map fun k => (k, f k)) k = some (f k) := by
  induction ks with
  | nil => simp at h
  | cons x ks ih =>
    rw [List.map_cons, lookup_cons]
    by_cases hx : x = k
    · simp [hx]
    · rcases List.mem_cons.1 h with h1 | h1
      · exact absurd h1.symm hx
      · simp [hx, ih h1]

/-- The value of a metric in one category's dictionary. -/
def valueOf (k : String) (m : Dict ℚ) : ℚ := (lookup m k).getD 0

theorem dict_eq {m : Dict ℚ} {ks : List String} (hk : m.map Prod.fst = ks) (hn : ks.Nodup) :
    m = ks.map fun k => (k, valueOf k m) := by
  subst hk
  induction m with
  | nil => rfl
  | cons kv m ih =>
    rw [List.map_cons, List.nodup_cons] at hn
    rw [List.map_cons, List.map_cons]
    congr 1
    · simp [valueOf, lookup_cons]
    · conv => lhs; rw [ih hn.2]
      apply List.map_congr_left
      intro k hk
      have hne : kv.1 ≠ k := fun e => hn.1 (e ▸ hk)
      simp [valueOf, lookup_cons, hne]

theorem pushMetric_mem {ks : List String} (f : String → List ℚ) (k : String) (v : ℚ) (h : k ∈ ks) :
    pushMetric (ks.map fun k => (k, f k)) k v
      = ks.map fun k' => (k', if k' = k then f k' ++ [v] else f k') := by
  unfold pushMetric
  rw [if_pos]
  · rw [List.map_map]
    apply List.map_congr_left
    intro k' _
    simp only [Function.comp_apply]
    by_cases e : k' = k <;> simp [e]
  · simpa using h

theorem pushAll_mem {ks : List String} (f : String → List ℚ) (g : String → ℚ) (us : List String)
    (hu : us.Nodup) (hsub : ∀ u ∈ us, u ∈ ks) :
    pushAll (ks.map fun k => (k, f k)) (us.map fun u => (u, g u))
      = ks.map fun k' => (k', if k' ∈ us then f k' ++ [g k'] else f k') := by
  induction us generalizing f with
  | nil => simp [pushAll]
  | cons u us ih =>
    rw [List.nodup_cons] at hu
    have e : pushAll (ks.map fun k => (k, f k)) ((u :: us).map fun u => (u, g u))
        = pushAll (pushMetric (ks.map fun k => (k, f k)) u (g u)) (us.map fun u => (u, g u)) := rfl
    rw [e, pushMetric_mem f u (g u) (hsub u (by simp)),
      ih (fun k' => if k' = u then f k' ++ [g u] else f k') hu.2
        (fun w hw => hsub w (List.mem_cons_of_mem _ hw))]
    apply List.map_congr_left
    intro k' _
    by_cases h1 : k' = u
    · subst h1
      simp [hu.1]
    · simp [h1]

theorem pushAll_new (d : Dict (List ℚ)) (g : String → ℚ) (us : List String) (hu : us.Nodup)
    (hdis : ∀ u ∈ us, u ∉ d.map Prod.fst) :
    pushAll d (us.map fun u => (u, g u)) = d ++ us.map fun u => (u, [g u]) := by
  induction us generalizing d with
  | nil => simp [pushAll]
  | cons u us ih =>
    rw [List.nodup_cons] at hu
    have e : pushAll d ((u :: us).map fun u => (u, g u))
        = pushAll (pushMetric d u (g u)) (us.map fun u => (u, g u)) := rfl
    have hp : pushMetric d u (g u) = d ++ [(u, [g u])] := by
      unfold pushMetric
      rw [if_neg]
      have := hdis u (by simp)
      simpa using this
    rw [e, hp, ih _ hu.2]
    · simp
    · intro w hw hin
      rw [List.map_append, List.mem_append] at hin
      rcases hin with h | h
      · exact hdis w (List.mem_cons_of_mem _ hw) h
      · simp at h
        exact hu.1 (h ▸ hw)

/-- The table built from the metrics of the categories. -/
theorem categoryLoop_from {ks : List String} (hn : ks.Nodup)
    (evalCat : Nat → Int → Except PyErr (Dict ℚ)) (res : Nat → Dict ℚ)
    (cs : List Int) (i : Nat) (rows : List (Dict ℚ))
    (hok : ∀ j (hj : j < cs.length), evalCat (i + j) cs[j] = .ok (res (i + j)))
    (hks : ∀ j < cs.length, (res (i + j)).map Prod.fst = ks) :
    categoryLoop evalCat i cs (ks.map fun k => (k, rows.map (valueOf k)))
      = .ok (ks.map fun k =>
          (k, (rows ++ (List.range cs.length).map fun (j : Nat) => res (i + j)).map (valueOf k))) := by
  induction cs generalizing i rows with
  | nil => simp [categoryLoop]
  | cons c cs ih =>
    unfold categoryLoop
    have h0 := hok 0 (by simp)
    simp only [Nat.add_zero, List.getElem_cons_zero] at h0
    have hk0 := hks 0 (by simp)
    simp only [Nat.add_zero] at hk0
    simp only [h0]
    have hm : res i = ks.map fun k => (k, valueOf k (res i)) := dict_eq hk0 hn
    have hp : pushAll (ks.map fun k => (k, rows.map (valueOf k))) (res i)
        = ks.map fun k => (k, (rows ++ [res i]).map (valueOf k)) := by
      conv => lhs; rw [hm]
      rw [pushAll_mem _ _ ks hn (fun _ h => h)]
      apply List.map_congr_left
      intro k hk
      simp [hk]
    rw [hp, ih (i + 1) (rows ++ [res i])]
    · congr 1
      apply List.map_congr_left
      intro k _
      congr 2
      rw [List.append_assoc, List.length_cons, List.range_succ_eq_map, List.map_cons]
      congr 1
      simp only [List.singleton_append, Nat.add_zero]
      congr 1
      rw [List.map_map]
      apply List.map_congr_left
      intro j _
      simp only [Function.comp_apply]
      congr 1; omega
    · intro j hj
      have := hok (j + 1) (by simp; omega)
      rw [show i + 1 + j = i + (j + 1) by omega]
      simpa using this
    · intro j hj
      have := hks (j + 1) (by simp; omega)
      rw [show i + 1 + j = i + (j + 1) by omega]
      exact this

theorem categoryLoop_eq {ks : List String} (hn : ks.Nodup)
    (evalCat : Nat → Int → Except PyErr (Dict ℚ)) (res : Nat → Dict ℚ) (cs : List Int) (hne : cs ≠ [])
    (hok : ∀ j (hj : j < cs.length), evalCat j cs[j] = .ok (res j))
    (hks : ∀ j < cs.length, (res j).map Prod.fst = ks) :
    categoryLoop evalCat 0 cs []
      = .ok (ks.map fun k => (k, (List.range cs.length).map fun (j : Nat) => valueOf k (res j))) := by
  cases cs with
  | nil => exact absurd rfl hne
  | cons c cs =>
    unfold categoryLoop
    have h0 := hok 0 (by simp)
    simp only [List.getElem_cons_zero] at h0
    have hk0 := hks 0 (by simp)
    simp only [h0]
    have hm : res 0 = ks.map fun k => (k, valueOf k (res 0)) := dict_eq hk0 hn
    have hp : pushAll [] (res 0) = ks.map fun k => (k, [res 0].map (valueOf k)) := by
      conv => lhs; rw [hm]
      rw [pushAll_new [] _ ks hn (by simp)]
      simp
    rw [hp, categoryLoop_from hn evalCat res cs (0 + 1) [res 0]]
    · congr 1
      apply List.map_congr_left
      intro k _
      congr 1
      rw [List.length_cons, List.range_succ_eq_map, List.map_cons, List.map_append]
      rw [List.map_map, List.map_map]
      show [valueOf k (res 0)] ++ _ = [valueOf k (res 0)] ++ _
      congr 1
      apply List.map_congr_left
      intro j _
      simp only [Function.comp_apply]
      congr 2; omega
    · intro j hj
      have := hok (j + 1) (by simp; omega)
      rw [show 0 + 1 + j = j + 1 by omega]
      simpa using this
    · intro j hj
      have := hks (j + 1) (by simp; omega)
      rw [show 0 + 1 + j = j + 1 by omega]
      exact this

theorem categoryLoop_error (evalCat : Nat → Int → Except PyErr (Dict ℚ)) (e : PyErr) (cs : List Int)
    (i j : Nat) (hj : j < cs.length) (d : Dict (List ℚ))
    (hpre : ∀ l (hl : l < j), ∃ m, evalCat (i + l) (cs[l]'(by omega)) = .ok m)
    (herr : evalCat (i + j) cs[j] = .error e) :
    categoryLoop evalCat i cs d = .error e := by
  induction cs generalizing i j d with
  | nil => simp at hj
  | cons c cs ih =>
    unfold categoryLoop
    cases j with
    | zero =>
      simp only [Nat.add_zero, List.getElem_cons_zero] at herr
      simp only [herr]
    | succ j =>
      obtain ⟨m, hm⟩ := hpre 0 (by omega)
      simp only [Nat.add_zero, List.getElem_cons_zero] at hm
      simp only [hm]
      apply ih (i + 1) j (by simp at hj; omega)
      · intro l hl
        obtain ⟨m', hm'⟩ := hpre (l + 1) (by omega)
        refine ⟨m', ?_⟩
        rw [show i + 1 + l = i + (l + 1) by omega]
        simpa using hm'
      · rw [show i + 1 + j = i + (j + 1) by omega]
        simpa using herr

theorem roundDec_close (k : Nat) (x : ℚ) : |roundDec k x - x| ≤ 1 / 2 / 10 ^ k := by
  unfold roundDec
  simp only
  have hp : (0 : ℚ) < 10 ^ k := by positivity
  have h1 := Int.floor_le (x * 10 ^ k)
  have h2 := Int.lt_floor_add_one (x * 10 ^ k)
  have key : ∀ z : ℚ, |z - x * 10 ^ k| ≤ 1 / 2 → |z / 10 ^ k - x| ≤ 1 / 2 / 10 ^ k := by
    intro z hz
    rw [abs_le] at hz ⊢
    constructor
    · rw [← sub_nonneg]
      have : z / 10 ^ k - x - -(1 / 2 / 10 ^ k) = (z - x * 10 ^ k + 1 / 2) / 10 ^ k := by
        field_simp; ring
      rw [this]
      exact div_nonneg (by linarith [hz.1]) hp.le
    · rw [← sub_nonneg]
      have : 1 / 2 / 10 ^ k - (z / 10 ^ k - x) = (1 / 2 - (z - x * 10 ^ k)) / 10 ^ k := by
        field_simp
      rw [this]
      exact div_nonneg (by linarith [hz.2]) hp.le
  apply key
  split
  · rw [abs_le]; constructor <;> linarith
  · split
    · push_cast; rw [abs_le]; constructor <;> linarith
    · split
      · rw [abs_le]; constructor <;> linarith
      · push_cast; rw [abs_le]; constructor <;> linarith

theorem mapE_ok {α β : Type} (f : α → Except PyErr β) (g : α → β) (l : List α)
    (h : ∀ x ∈ l, f x = .ok (g x)) : mapE f l = .ok (l.map g) := by
  induction l with
  | nil => rfl
  | cons x l ih =>
    unfold mapE
    rw [h x (by simp), ih fun y hy => h y (List.mem_cons_of_mem _ hy)]
    rfl

theorem className_ok (classes : List String) {c : Int} (h1 : 1 ≤ c) (h2 : c ≤ classes.length) :
    className classes c = .ok (classes.getD (c - 1).toNat "") := by
  unfold className
  simp only
  have e : (if c - 1 < 0 then c - 1 + (classes.length : Int) else c - 1) = c - 1 := if_neg (by omega)
  rw [e, if_pos (by omega)]
  rw [List.getD_eq_getElem?_getD, List.getElem?_eq_getElem (by omega)]
  rfl

end EdgeEval.Evaluators
