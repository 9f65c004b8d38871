import Verif.Spec.ArrayHH
import Mathlib.Algebra.BigOperators.Group.List.Basic
import Mathlib.Data.List.Lex
import Mathlib.Tactic.Ring
import Mathlib.Tactic.Positivity

/-!
# Proofs about Array.hh: the index arithmetic and the memory
-/

namespace EdgeEval.ArrayHH

open EdgeEval.Spec.ArrayHH
open EdgeEval.CsaMem (Blk)
open EdgeEval.MatrixMem (Fault)

/-! ## Arithmetic -/

theorem prod32_go (dims : List Nat) (a : Nat) : dims.foldl (fun a d => u32 (a * d)) (a % 2 ^ 32) = (a * dims.prod) % 2 ^ 32 := by
  induction dims generalizing a with
  | nil => simp
  | cons d ds ih =>
    rw [List.foldl_cons, List.prod_cons]
    have : u32 (a % 2 ^ 32 * d) = (a * d) % 2 ^ 32 := by
      unfold u32; rw [Nat.mod_mul_mod]
    rw [this, ih, Nat.mul_assoc]

theorem prod32_eq (dims : List Nat) : prod32 dims = dims.prod % 2 ^ 32 := by
  have := prod32_go dims 1
  rw [Nat.one_mul] at this
  exact this

theorem horner_eq (ds is : List Nat) (hl : is.length = ds.length) (a : Nat) :
    horner (a % 2 ^ 32) (ds.zip is) = (a * ds.prod + rank ds is) % 2 ^ 32 := by
  induction ds generalizing is a with
  | nil => 
    cases is with
    | nil => simp [horner, rank]
    | cons => simp at hl
  | cons d ds ih =>
    cases is with
    | nil => simp at hl
    | cons i is =>
      rw [List.zip_cons_cons, horner]
      have : u32 (u32 (a % 2 ^ 32 * d) + i) = (a * d + i) % 2 ^ 32 := by
        unfold u32; rw [Nat.mod_mul_mod, Nat.mod_add_mod]
      rw [this, ih is (by simpa using hl), rank, List.prod_cons]
      congr 1; ring

theorem index32_eq (dims idx : List Nat) (hl : idx.length = dims.length) (hu : areU32 idx = true) :
    index32 dims idx = rank dims idx % 2 ^ 32 := by
  cases dims with
  | nil => 
    cases idx with
    | nil => rfl
    | cons => simp at hl
  | cons d ds =>
    cases idx with
    | nil => simp at hl
    | cons i is =>
      have hi : i < 2 ^ 32 := by simp [areU32] at hu; omega
      unfold index32
      rw [List.zip_cons_cons]
      show horner i (ds.zip is) = _
      have := horner_eq ds is (by simpa using hl) i
      rw [Nat.mod_eq_of_lt hi] at this
      rw [this, rank]

theorem inRange_cons {i d : Nat} {is ds : List Nat} : InRange (i :: is) (d :: ds) ↔ i < d ∧ InRange is ds := by
  unfold InRange
  simp only [List.length_cons, List.zip_cons_cons, List.mem_cons, forall_eq_or_imp]
  constructor
  · rintro ⟨h1, h2, h3⟩; exact ⟨h2, by omega, h3⟩
  · rintro ⟨h1, h2, h3⟩; exact ⟨by omega, h1, h3⟩

theorem not_inRange_nil {d : Nat} {ds : List Nat} : ¬ InRange [] (d :: ds) := fun h => by simp [InRange] at h

theorem not_inRange_cons_nil {i : Nat} {is : List Nat} : ¬ InRange (i :: is) [] := fun h => by simp [InRange] at h

theorem inRange_nil : InRange [] [] := ⟨rfl, by simp⟩

theorem below_iff (idx dims : List Nat) : below idx dims = true ↔ InRange idx dims := by
  induction idx generalizing dims with
  | nil => 
    cases dims with
    | nil => exact ⟨fun _ => inRange_nil, fun _ => rfl⟩
    | cons => simp [below, not_inRange_nil]
  | cons i is ih =>
    cases dims with
    | nil => simp [below, not_inRange_cons_nil]
    | cons d ds => simp [below, inRange_cons, ih]

theorem rank_lt {dims idx : List Nat} (h : InRange idx dims) : rank dims idx < dims.prod := by
  induction dims generalizing idx with
  | nil => 
    cases idx with
    | nil => simp [rank]
    | cons => exact absurd h not_inRange_cons_nil
  | cons d ds ih =>
    cases idx with
    | nil => exact absurd h not_inRange_nil
    | cons i is =>
      obtain ⟨h1, h2⟩ := inRange_cons.1 h
      rw [rank, List.prod_cons]
      have := ih h2
      calc i * ds.prod + rank ds is < i * ds.prod + ds.prod := by omega
        _ = (i + 1) * ds.prod := by ring
        _ ≤ d * ds.prod := Nat.mul_le_mul_right _ h1

theorem rank_lex {dims idx idx' : List Nat} (h : InRange idx dims) (h' : InRange idx' dims) :
    rank dims idx < rank dims idx' ↔ List.Lex (· < ·) idx idx' := by
  induction dims generalizing idx idx' with
  | nil =>
    cases idx with
    | cons => exact absurd h not_inRange_cons_nil
    | nil =>
      cases idx' with
      | cons => exact absurd h' not_inRange_cons_nil
      | nil => simp [rank]
  | cons d ds ih =>
    cases idx with
    | nil => exact absurd h not_inRange_nil
    | cons i is =>
      cases idx' with
      | nil => exact absurd h' not_inRange_nil
      | cons i' is' =>
        obtain ⟨h1, h2⟩ := inRange_cons.1 h
        obtain ⟨h1', h2'⟩ := inRange_cons.1 h'
        have r1 := rank_lt h2
        have r2 := rank_lt h2'
        rw [rank, rank, List.cons_lex_cons_iff, ← ih h2 h2']
        rcases Nat.lt_trichotomy i i' with hi | hi | hi
        · have : (i + 1) * ds.prod ≤ i' * ds.prod := Nat.mul_le_mul_right _ hi
          rw [Nat.add_mul, Nat.one_mul] at this
          exact ⟨fun _ => .inl hi, fun _ => by omega⟩
        · subst hi
          constructor
          · intro h; exact .inr ⟨rfl, by omega⟩
          · rintro (h | ⟨_, h⟩)
            · omega
            · omega
        · have : (i' + 1) * ds.prod ≤ i * ds.prod := Nat.mul_le_mul_right _ hi
          rw [Nat.add_mul, Nat.one_mul] at this
          constructor
          · intro h; omega
          · rintro (h | ⟨h, _⟩) <;> omega

theorem rank_inj {dims idx idx' : List Nat} (h : InRange idx dims) (h' : InRange idx' dims)
    (e : rank dims idx = rank dims idx') : idx = idx' := by
  induction dims generalizing idx idx' with
  | nil =>
    cases idx with
    | cons => exact absurd h not_inRange_cons_nil
    | nil =>
      cases idx' with
      | cons => exact absurd h' not_inRange_cons_nil
      | nil => rfl
  | cons d ds ih =>
    cases idx with
    | nil => exact absurd h not_inRange_nil
    | cons i is =>
      cases idx' with
      | nil => exact absurd h' not_inRange_nil
      | cons i' is' =>
        obtain ⟨h1, h2⟩ := inRange_cons.1 h
        obtain ⟨h1', h2'⟩ := inRange_cons.1 h'
        have r1 := rank_lt h2
        have r2 := rank_lt h2'
        rw [rank, rank] at e
        rcases Nat.lt_trichotomy i i' with hi | hi | hi
        · have : (i + 1) * ds.prod ≤ i' * ds.prod := Nat.mul_le_mul_right _ hi
          rw [Nat.add_mul, Nat.one_mul] at this
          omega
        · subst hi
          rw [ih h2 h2' (by omega)]
        · have : (i' + 1) * ds.prod ≤ i * ds.prod := Nat.mul_le_mul_right _ hi
          rw [Nat.add_mul, Nat.one_mul] at this
          omega

theorem unrank_spec (dims : List Nat) (k : Nat) (hk : k < dims.prod) :
    InRange (unrank dims k) dims ∧ rank dims (unrank dims k) = k := by
  induction dims generalizing k with
  | nil => 
    rw [List.prod_nil] at hk
    exact ⟨inRange_nil, by rw [rank]; omega; intros; simp_all⟩
  | cons d ds ih =>
    rw [List.prod_cons] at hk
    have hp : 0 < ds.prod := by
      rcases Nat.eq_zero_or_pos ds.prod with h | h
      · rw [h] at hk; omega
      · exact h
    obtain ⟨h1, h2⟩ := ih (k % ds.prod) (Nat.mod_lt _ hp)
    rw [unrank, inRange_cons, rank, h2]
    exact ⟨⟨Nat.div_lt_of_lt_mul (by rwa [Nat.mul_comm] at hk), h1⟩, Nat.div_add_mod' k _⟩

end EdgeEval.ArrayHH
