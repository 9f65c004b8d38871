import Verif.Model.Thin
import Verif.Spec.Topology

/-!
# Bit-level facts about 3x3 neighbourhoods

Everything here is a statement about eight (or, for two overlapping neighbourhoods, at most thirteen)
booleans, decided over the whole finite domain by the kernel.
-/

namespace EdgeEval

/-- All values of a boolean. -/
def allB (f : Bool → Bool) : Bool := f true && f false

theorem allB_iff {f : Bool → Bool} : allB f = true ↔ ∀ b, f b = true := by
  unfold allB
  rw [Bool.and_eq_true]
  exact ⟨fun h b => by cases b <;> simp [h.1, h.2], fun h => ⟨h _, h _⟩⟩

/-- Some value of a boolean. -/
def anyB (f : Bool → Bool) : Bool := f true || f false

theorem anyB_iff {f : Bool → Bool} : anyB f = true ↔ ∃ b, f b = true := by
  unfold anyB
  rw [Bool.or_eq_true]
  constructor
  · rintro (h | h)
    · exact ⟨_, h⟩
    · exact ⟨_, h⟩
  · rintro ⟨b, h⟩
    cases b
    · right; exact h
    · left; exact h

/-- Crossing number condition. -/
def g1b (b1 b2 b3 b4 b5 b6 b7 b8 : Bool) : Bool :=
  (!b1 && (b2 || b3)).toNat + (!b3 && (b4 || b5)).toNat + (!b5 && (b6 || b7)).toNat +
    (!b7 && (b8 || b1)).toNat == 1

def g2b (b1 b2 b3 b4 b5 b6 b7 b8 : Bool) : Bool :=
  let n1 := (b1 || b2).toNat + (b3 || b4).toNat + (b5 || b6).toNat + (b7 || b8).toNat
  let n2 := (b2 || b3).toNat + (b4 || b5).toNat + (b6 || b7).toNat + (b8 || b1).toNat
  Nat.ble 2 (min n1 n2) && Nat.ble (min n1 n2) 3

def g3b (p : Bool) (b1 b2 b3 b4 b5 b6 b7 b8 : Bool) : Bool :=
  if p then !((b6 || b7 || !b4) && b5) else !((b2 || b3 || !b8) && b1)

/-- Deletability in the first (`p = false`) or second (`p = true`) sub-iteration. -/
def delb (p : Bool) (b1 b2 b3 b4 b5 b6 b7 b8 : Bool) : Bool :=
  g1b b1 b2 b3 b4 b5 b6 b7 b8 && g2b b1 b2 b3 b4 b5 b6 b7 b8 && g3b p b1 b2 b3 b4 b5 b6 b7 b8

/-- Index of the 512-entry table (centre bit `c`). -/
def idx9 (c b1 b2 b3 b4 b5 b6 b7 b8 : Bool) : Nat :=
  b4.toNat * 1 + b3.toNat * 2 + b2.toNat * 4 + b5.toNat * 8 + c.toNat * 16 + b1.toNat * 32 +
    b6.toNat * 64 + b7.toNat * 128 + b8.toNat * 256

/-- Index of the 256-entry tables. -/
def idx8 (c b1 b2 b3 b4 b5 b6 b7 b8 : Bool) : Nat :=
  b4.toNat * 8 + b3.toNat * 4 + b2.toNat * 2 + b5.toNat * 16 + c.toNat * 0 + b1.toNat * 1 +
    b6.toNat * 32 + b7.toNat * 64 + b8.toNat * 128

/-- All entries of the 512-entry tables. -/
theorem lut_entries : ∀ c b1 b2 b3 b4 b5 b6 b7 b8 : Bool,
    (thin1Lut (idx9 c b1 b2 b3 b4 b5 b6 b7 b8) = (c && !delb false b1 b2 b3 b4 b5 b6 b7 b8)) ∧
    (thin2Lut (idx9 c b1 b2 b3 b4 b5 b6 b7 b8) = (c && !delb true b1 b2 b3 b4 b5 b6 b7 b8)) ∧
    (identityLut (idx9 c b1 b2 b3 b4 b5 b6 b7 b8) = c) ∧ idx9 c b1 b2 b3 b4 b5 b6 b7 b8 < 512 := by
  decide +kernel

/-- All entries of the 256-entry tables. -/
theorem bwlut_entries : ∀ c b1 b2 b3 b4 b5 b6 b7 b8 : Bool,
    ((g123Lut.getD (idx8 c b1 b2 b3 b4 b5 b6 b7 b8) 0 ≠ 0) ↔ delb false b1 b2 b3 b4 b5 b6 b7 b8 = true) ∧
    ((g123pLut.getD (idx8 c b1 b2 b3 b4 b5 b6 b7 b8) 0 ≠ 0) ↔ delb true b1 b2 b3 b4 b5 b6 b7 b8 = true) ∧
    idx8 c b1 b2 b3 b4 b5 b6 b7 b8 < 256 := by
  decide +kernel

/-! Two overlapping neighbourhoods: `mayᵢ p b` says that the `i`-th neighbour of a set pixel with
neighbourhood `b` may itself be deletable, for some values of the pixels outside `b`. -/

def may1 (p b1 b2 b3 _b4 _b5 _b6 b7 b8 : Bool) : Bool :=
  anyB fun u1 => anyB fun u2 => anyB fun u8 => delb p u1 u2 b2 b3 true b7 b8 u8 && b1
def may2 (p b1 b2 b3 _b4 _b5 _b6 _b7 _b8 : Bool) : Bool :=
  anyB fun u1 => anyB fun u2 => anyB fun u3 => anyB fun u4 => anyB fun u8 =>
    delb p u1 u2 u3 u4 b3 true b1 u8 && b2
def may3 (p b1 b2 b3 b4 b5 _b6 _b7 _b8 : Bool) : Bool :=
  anyB fun u2 => anyB fun u3 => anyB fun u4 => delb p b2 u2 u3 u4 b4 b5 true b1 && b3
def may4 (p _b1 _b2 b3 b4 b5 _b6 _b7 _b8 : Bool) : Bool :=
  anyB fun u2 => anyB fun u3 => anyB fun u4 => anyB fun u5 => anyB fun u6 =>
    delb p b3 u2 u3 u4 u5 u6 b5 true && b4
def may5 (p _b1 _b2 b3 b4 b5 b6 b7 _b8 : Bool) : Bool :=
  anyB fun u4 => anyB fun u5 => anyB fun u6 => delb p true b3 b4 u4 u5 u6 b6 b7 && b5
def may6 (p _b1 _b2 _b3 _b4 b5 b6 b7 _b8 : Bool) : Bool :=
  anyB fun u4 => anyB fun u5 => anyB fun u6 => anyB fun u7 => anyB fun u8 =>
    delb p b7 true b5 u4 u5 u6 u7 u8 && b6
def may7 (p b1 _b2 _b3 _b4 b5 b6 b7 b8 : Bool) : Bool :=
  anyB fun u6 => anyB fun u7 => anyB fun u8 => delb p b8 b1 true b5 b6 u6 u7 u8 && b7
def may8 (p b1 _b2 _b3 _b4 _b5 _b6 b7 b8 : Bool) : Bool :=
  anyB fun u1 => anyB fun u2 => anyB fun u6 => anyB fun u7 => anyB fun u8 =>
    delb p u1 u2 b1 true b7 u6 u7 u8 && b8

/-- The check of `robust`. -/
def robustCheck : Bool :=
  allB fun p => allB fun b1 => allB fun b2 => allB fun b3 => allB fun b4 => allB fun b5 => allB fun b6 =>
  allB fun b7 => allB fun b8 =>
  !delb p b1 b2 b3 b4 b5 b6 b7 b8 ||
  allB fun s1 => !(!s1 || may1 p b1 b2 b3 b4 b5 b6 b7 b8) ||
  allB fun s2 => !(!s2 || may2 p b1 b2 b3 b4 b5 b6 b7 b8) ||
  allB fun s3 => !(!s3 || may3 p b1 b2 b3 b4 b5 b6 b7 b8) ||
  allB fun s4 => !(!s4 || may4 p b1 b2 b3 b4 b5 b6 b7 b8) ||
  allB fun s5 => !(!s5 || may5 p b1 b2 b3 b4 b5 b6 b7 b8) ||
  allB fun s6 => !(!s6 || may6 p b1 b2 b3 b4 b5 b6 b7 b8) ||
  allB fun s7 => !(!s7 || may7 p b1 b2 b3 b4 b5 b6 b7 b8) ||
  allB fun s8 => !(!s8 || may8 p b1 b2 b3 b4 b5 b6 b7 b8) ||
  g1b (b1 && !s1) (b2 && !s2) (b3 && !s3) (b4 && !s4) (b5 && !s5) (b6 && !s6) (b7 && !s7) (b8 && !s8)

theorem robustCheck_true : robustCheck = true := by decide +kernel

theorem robust (p b1 b2 b3 b4 b5 b6 b7 b8 s1 s2 s3 s4 s5 s6 s7 s8 : Bool)
    (hd : delb p b1 b2 b3 b4 b5 b6 b7 b8 = true)
    (h1 : s1 = true → may1 p b1 b2 b3 b4 b5 b6 b7 b8 = true)
    (h2 : s2 = true → may2 p b1 b2 b3 b4 b5 b6 b7 b8 = true)
    (h3 : s3 = true → may3 p b1 b2 b3 b4 b5 b6 b7 b8 = true)
    (h4 : s4 = true → may4 p b1 b2 b3 b4 b5 b6 b7 b8 = true)
    (h5 : s5 = true → may5 p b1 b2 b3 b4 b5 b6 b7 b8 = true)
    (h6 : s6 = true → may6 p b1 b2 b3 b4 b5 b6 b7 b8 = true)
    (h7 : s7 = true → may7 p b1 b2 b3 b4 b5 b6 b7 b8 = true)
    (h8 : s8 = true → may8 p b1 b2 b3 b4 b5 b6 b7 b8 = true) :
    g1b (b1 && !s1) (b2 && !s2) (b3 && !s3) (b4 && !s4) (b5 && !s5) (b6 && !s6) (b7 && !s7)
      (b8 && !s8) = true := by
  have imp : ∀ {s m : Bool}, (s = true → m = true) → (!(!s || m)) = false := by
    intro s m; cases s <;> cases m <;> simp
  have key := robustCheck_true
  unfold robustCheck at key
  have k0 := allB_iff.mp (allB_iff.mp (allB_iff.mp (allB_iff.mp (allB_iff.mp (allB_iff.mp (allB_iff.mp
    (allB_iff.mp (allB_iff.mp key p) b1) b2) b3) b4) b5) b6) b7) b8
  simp only [hd, Bool.not_true, Bool.false_or] at k0
  have k1 := allB_iff.mp k0 s1
  rw [imp h1, Bool.false_or] at k1
  have k2 := allB_iff.mp k1 s2
  rw [imp h2, Bool.false_or] at k2
  have k3 := allB_iff.mp k2 s3
  rw [imp h3, Bool.false_or] at k3
  have k4 := allB_iff.mp k3 s4
  rw [imp h4, Bool.false_or] at k4
  have k5 := allB_iff.mp k4 s5
  rw [imp h5, Bool.false_or] at k5
  have k6 := allB_iff.mp k5 s6
  rw [imp h6, Bool.false_or] at k6
  have k7 := allB_iff.mp k6 s7
  rw [imp h7, Bool.false_or] at k7
  have k8 := allB_iff.mp k7 s8
  rw [imp h8, Bool.false_or] at k8
  exact k8

/-! Connectivity inside the ring of neighbours. -/

/-- The `k`-th of eight bits. -/
def sel (b1 b2 b3 b4 b5 b6 b7 b8 : Bool) (k : Nat) : Bool :=
  match k with
  | 1 => b1 | 2 => b2 | 3 => b3 | 4 => b4 | 5 => b5 | 6 => b6 | 7 => b7 | _ => b8

/-- A deletable pixel has two neighbours. -/
theorem delb_two : ∀ p b1 b2 b3 b4 b5 b6 b7 b8 : Bool, delb p b1 b2 b3 b4 b5 b6 b7 b8 = true →
    ∃ i ∈ [1, 2, 3, 4, 5, 6, 7, 8], ∃ j ∈ [1, 2, 3, 4, 5, 6, 7, 8], i < j ∧
      sel b1 b2 b3 b4 b5 b6 b7 b8 i = true ∧ sel b1 b2 b3 b4 b5 b6 b7 b8 j = true := by
  decide +kernel

/-- 4-adjacency in the ring `1..8`. -/
def ring4 (i j : Nat) : Bool := i + 1 == j || j + 1 == i || (i == 1 && j == 8) || (i == 8 && j == 1)

/-- 8-adjacency in the ring: also two consecutive odd positions. -/
def ring8 (i j : Nat) : Bool :=
  ring4 i j || (i % 2 == 1 && j % 2 == 1 && (i + 2 == j || j + 2 == i || (i == 1 && j == 7) || (i == 7 && j == 1)))

/-- Add the positions with property `b` adjacent to one in the list. -/
def grow (adj : Nat → Nat → Bool) (b : Nat → Bool) (l : List Nat) : List Nat :=
  l ++ [1, 2, 3, 4, 5, 6, 7, 8].filter fun j => b j && !l.contains j && l.any fun i => adj i j

theorem grow_sound {adj : Nat → Nat → Bool} {b : Nat → Bool} {E : Nat → Prop}
    (hstep : ∀ i j, i ∈ [1, 2, 3, 4, 5, 6, 7, 8] → j ∈ [1, 2, 3, 4, 5, 6, 7, 8] → E i → adj i j = true → b j = true → E j)
    {l : List Nat} (h : ∀ k ∈ l, k ∈ [1, 2, 3, 4, 5, 6, 7, 8] ∧ E k) : ∀ k ∈ grow adj b l, k ∈ [1, 2, 3, 4, 5, 6, 7, 8] ∧ E k := by
  intro k hk
  unfold grow at hk
  rw [List.mem_append] at hk
  rcases hk with hk | hk
  · exact h k hk
  · rw [List.mem_filter] at hk
    obtain ⟨hk8, hk⟩ := hk
    simp only [Bool.and_eq_true, List.any_eq_true] at hk
    obtain ⟨⟨hb, -⟩, i, hi, ha⟩ := hk
    exact ⟨hk8, hstep i k (h i hi).1 hk8 (h i hi).2 ha hb⟩

/-- Seven rounds of `grow`. -/
def grow7 (adj : Nat → Nat → Bool) (b : Nat → Bool) (i : Nat) : List Nat :=
  let g := grow adj b
  g (g (g (g (g (g (g [i]))))))

theorem grow7_sound {adj : Nat → Nat → Bool} {b : Nat → Bool} {E : Nat → Prop}
    (hstep : ∀ i j, i ∈ [1, 2, 3, 4, 5, 6, 7, 8] → j ∈ [1, 2, 3, 4, 5, 6, 7, 8] → E i → adj i j = true → b j = true → E j)
    {i : Nat} (hi : i ∈ [1, 2, 3, 4, 5, 6, 7, 8]) (h : E i) : ∀ k ∈ grow7 adj b i, E k := by
  have h0 : ∀ k ∈ [i], k ∈ [1, 2, 3, 4, 5, 6, 7, 8] ∧ E k := by
    intro k hk
    rw [List.mem_singleton] at hk
    subst hk; exact ⟨hi, h⟩
  intro k hk
  exact (grow_sound hstep (grow_sound hstep (grow_sound hstep (grow_sound hstep (grow_sound hstep
    (grow_sound hstep (grow_sound hstep h0)))))) k hk).2

/-- A neighbourhood with crossing number 1: its set pixels are 8-connected in the ring and its clear
side neighbours are 4-connected among the clear pixels of the ring; both are non-empty. -/
def ringCheck : Bool :=
  allB fun b1 => allB fun b2 => allB fun b3 => allB fun b4 => allB fun b5 => allB fun b6 =>
  allB fun b7 => allB fun b8 =>
  !g1b b1 b2 b3 b4 b5 b6 b7 b8 ||
    let b := sel b1 b2 b3 b4 b5 b6 b7 b8
    let nbv := fun k => !sel b1 b2 b3 b4 b5 b6 b7 b8 k
    [1, 2, 3, 4, 5, 6, 7, 8].any b &&
    [1, 3, 5, 7].any nbv &&
    ([1, 2, 3, 4, 5, 6, 7, 8].all fun i => !b i ||
      let g := grow7 ring8 b i
      [1, 2, 3, 4, 5, 6, 7, 8].all fun j => !b j || g.contains j) &&
    ([1, 3, 5, 7].all fun i => !nbv i ||
      let g := grow7 ring4 nbv i
      [1, 3, 5, 7].all fun j => !nbv j || g.contains j)

theorem ringCheck_true : ringCheck = true := by decide +kernel

theorem ring_facts (b1 b2 b3 b4 b5 b6 b7 b8 : Bool) (h : g1b b1 b2 b3 b4 b5 b6 b7 b8 = true) :
    (∃ i ∈ [1, 2, 3, 4, 5, 6, 7, 8], sel b1 b2 b3 b4 b5 b6 b7 b8 i = true) ∧
    (∃ i ∈ [1, 3, 5, 7], sel b1 b2 b3 b4 b5 b6 b7 b8 i = false) ∧
    (∀ i ∈ [1, 2, 3, 4, 5, 6, 7, 8], sel b1 b2 b3 b4 b5 b6 b7 b8 i = true →
      ∀ j ∈ [1, 2, 3, 4, 5, 6, 7, 8], sel b1 b2 b3 b4 b5 b6 b7 b8 j = true →
        j ∈ grow7 ring8 (sel b1 b2 b3 b4 b5 b6 b7 b8) i) ∧
    (∀ i ∈ [1, 3, 5, 7], sel b1 b2 b3 b4 b5 b6 b7 b8 i = false →
      ∀ j ∈ [1, 3, 5, 7], sel b1 b2 b3 b4 b5 b6 b7 b8 j = false →
        j ∈ grow7 ring4 (fun k => !sel b1 b2 b3 b4 b5 b6 b7 b8 k) i) := by
  have key := ringCheck_true
  unfold ringCheck at key
  have k0 := allB_iff.mp (allB_iff.mp (allB_iff.mp (allB_iff.mp (allB_iff.mp (allB_iff.mp (allB_iff.mp
    (allB_iff.mp key b1) b2) b3) b4) b5) b6) b7) b8
  simp only [h, Bool.not_true, Bool.false_or] at k0
  generalize hs : sel b1 b2 b3 b4 b5 b6 b7 b8 = b at k0 ⊢
  simp only [Bool.and_eq_true, List.any_eq_true, List.all_eq_true, Bool.or_eq_true, Bool.not_eq_true',
    List.contains_iff_mem] at k0
  obtain ⟨⟨⟨a1, a2⟩, a3⟩, a4⟩ := k0
  refine ⟨a1, a2, ?_, ?_⟩
  · intro i hi hb j hj hb'
    rcases a3 i hi with c | c
    · rw [c] at hb; simp at hb
    · rcases c j hj with c | c
      · rw [c] at hb'; simp at hb'
      · exact c
  · intro i hi hb j hj hb'
    rcases a4 i hi with c | c
    · rw [hb] at c; simp at c
    · rcases c j hj with c | c
      · rw [hb'] at c; simp at c
      · exact c

end EdgeEval
