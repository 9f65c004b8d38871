import Verif.Model.CString
import Verif.Lemmas.Text

/-!
# Lemmas about the native strings
-/

namespace EdgeEval.CString

open Text

/-- Block `p` holds the characters `cs` from position `off`. -/
def Has (m : Mem) (p off : Nat) (cs : Str) : Prop :=
  ∃ b, m.blk p = some b ∧ off + cs.length ≤ b.size ∧ ∀ i, i < cs.length → b.cell (off + i) = cs[i]?

/-- The object denotes the characters `bs`. -/
def Rep (m : Mem) (o : Obj) (bs : Str) : Prop :=
  ∃ b, m.blk o.ptr = some b ∧ b.size = o.size ∧ o.length = bs.length ∧ bs.length < o.size ∧
    ∀ i, i ≤ bs.length → b.cell i = (bs ++ [nul])[i]?

theorem Rep.has {m : Mem} {o : Obj} {bs : Str} (h : Rep m o bs) : Has m o.ptr 0 (bs ++ [nul]) := by
  obtain ⟨b, hb, hs, hl, hlt, hc⟩ := h
  refine ⟨b, hb, by simp; omega, fun i hi => ?_⟩
  simp only [List.length_append, List.length_singleton] at hi
  rw [Nat.zero_add]
  exact hc i (by omega)

theorem Has.drop {m : Mem} {p : Nat} {cs : Str} (h : Has m p 0 cs) {k : Nat} (hk : k ≤ cs.length) : Has m p k (cs.drop k) := by
  obtain ⟨b, hb, hs, hc⟩ := h
  refine ⟨b, hb, by simp; omega, fun i hi => ?_⟩
  rw [List.length_drop] at hi
  have := hc (k + i) (by omega)
  rw [Nat.zero_add] at this
  rw [this, List.getElem?_drop]

theorem Has.take {m : Mem} {p off : Nat} {cs : Str} (h : Has m p off cs) (k : Nat) : Has m p off (cs.take k) := by
  obtain ⟨b, hb, hs, hc⟩ := h
  refine ⟨b, hb, by simp; omega, fun i hi => ?_⟩
  rw [List.length_take] at hi
  rw [hc i (by omega), List.getElem?_take, if_pos (by omega)]

theorem Has.tail {m : Mem} {p off : Nat} {c : Char} {cs : Str} (h : Has m p off (c :: cs)) : Has m p (off + 1) cs := by
  obtain ⟨b, hb, hs, hc⟩ := h
  simp only [List.length_cons] at hs
  refine ⟨b, hb, by omega, fun i hi => ?_⟩
  have := hc (i + 1) (by simp; omega)
  rw [List.getElem?_cons_succ] at this
  rw [← this]
  congr 1
  omega

theorem Has.head {m : Mem} {p off : Nat} {c : Char} {cs : Str} (h : Has m p off (c :: cs)) : rd p off m = .ok c := by
  obtain ⟨b, hb, hs, hc⟩ := h
  simp only [List.length_cons] at hs
  have := hc 0 (by simp)
  rw [Nat.add_zero, List.getElem?_cons_zero] at this
  unfold rd
  simp only [hb, if_pos (show off < b.size by omega), this]

theorem rdN_has {m : Mem} {p off : Nat} {cs : Str} (h : Has m p off cs) : rdN p m cs.length off = .ok cs := by
  induction cs generalizing off with
  | nil => rfl
  | cons c cs ih =>
    rw [List.length_cons, rdN, h.head]
    change (rdN p m cs.length (off + 1) >>= _) = _
    rw [ih h.tail]
    rfl

theorem cstrGo_has {m : Mem} {p off k : Nat} {cs : Str} (h : Has m p off (cs ++ [nul])) (hn : nul ∉ cs) (hk : cs.length < k) :
    cstrGo p m k off = .ok cs := by
  induction cs generalizing off k with
  | nil =>
    obtain ⟨k, rfl⟩ : ∃ j, k = j + 1 := ⟨k - 1, by simp at hk; omega⟩
    rw [cstrGo, Has.head h]
    rfl
  | cons c cs ih =>
    obtain ⟨k, rfl⟩ : ∃ j, k = j + 1 := ⟨k - 1, by simp at hk; omega⟩
    simp only [List.mem_cons, not_or] at hn
    rw [cstrGo, Has.head h]
    change (if c = nul then _ else _) = _
    rw [if_neg (Ne.symm hn.1)]
    rw [ih (Has.tail h) hn.2 (by simp at hk; omega)]
    rfl

theorem takeWhile_split (bs : Str) : ∃ rest, bs ++ [nul] = bs.takeWhile (· ≠ nul) ++ [nul] ++ rest := by
  induction bs with
  | nil => exact ⟨[], rfl⟩
  | cons c bs ih =>
    obtain ⟨rest, hr⟩ := ih
    by_cases hc : c = nul
    · exact ⟨bs ++ [nul], by simp [hc]⟩
    · refine ⟨rest, ?_⟩
      rw [List.takeWhile_cons_of_pos (by simpa using hc)]
      simp only [List.cons_append, List.append_assoc] at hr ⊢
      rw [hr]

theorem nul_notMem_takeWhile (bs : Str) : nul ∉ bs.takeWhile (· ≠ nul) := by
  intro h
  induction bs with
  | nil => simp at h
  | cons c bs ih =>
    rw [List.takeWhile_cons] at h
    split at h
    · rename_i hc
      rcases List.mem_cons.1 h with h | h
      · simp [← h] at hc
      · exact ih h
    · simp at h

theorem Has.prefix {m : Mem} {p off : Nat} {a b : Str} (h : Has m p off (a ++ b)) : Has m p off a := by
  have := h.take a.length
  rwa [List.take_left] at this

theorem cstr_has {m : Mem} {p off : Nat} {bs : Str} (h : Has m p off (bs ++ [nul])) :
    cstr p off m = .ok (bs.takeWhile (· ≠ nul)) := by
  obtain ⟨rest, hr⟩ := takeWhile_split bs
  have h' := h
  rw [hr] at h'
  have hp := h'.prefix
  obtain ⟨b, hb, hs, -⟩ := id hp
  unfold cstr
  simp only [hb]
  apply cstrGo_has hp (nul_notMem_takeWhile bs)
  simp only [List.length_append, List.length_singleton] at hs
  omega

theorem Rep.cstr {m : Mem} {o : Obj} {bs : Str} (h : Rep m o bs) {off : Nat} (ho : off ≤ bs.length) :
    cstr o.ptr off m = .ok ((bs.drop off).takeWhile (· ≠ nul)) := by
  have := h.has.drop (k := off) (by simp; omega)
  rw [List.drop_append_of_le_length ho] at this
  exact cstr_has this

theorem wr_ok {m : Mem} {p i : Nat} {b : Blk} (hb : m.blk p = some b) (hi : i < b.size) (c : Char) :
    ∃ m', wr p i c m = .ok m' ∧ m'.next = m.next ∧ (∀ q, q ≠ p → m'.blk q = m.blk q) ∧
      ∃ b', m'.blk p = some b' ∧ b'.size = b.size ∧ ∀ j, b'.cell j = if j = i then some c else b.cell j := by
  unfold wr
  simp only [hb, if_pos hi]
  exact ⟨_, rfl, rfl, fun q hq => by simp [hq], ⟨b.size, fun j => if j = i then some c else b.cell j⟩, by simp, rfl, fun j => rfl⟩

theorem wrN_ok {m : Mem} {p : Nat} (cs : Str) (off : Nat) {b : Blk} (hb : m.blk p = some b) (hi : off + cs.length ≤ b.size) :
    ∃ m', wrN p cs off m = .ok m' ∧ m'.next = m.next ∧ (∀ q, q ≠ p → m'.blk q = m.blk q) ∧
      ∃ b', m'.blk p = some b' ∧ b'.size = b.size ∧
        ∀ j, b'.cell j = if off ≤ j ∧ j < off + cs.length then cs[j - off]? else b.cell j := by
  induction cs generalizing off m b with
  | nil => exact ⟨m, rfl, rfl, fun _ _ => rfl, b, hb, rfl, fun j => by rw [if_neg]; simp⟩
  | cons c cs ih =>
    simp only [List.length_cons] at hi
    obtain ⟨m1, h1, n1, o1, b1, hb1, s1, c1⟩ := wr_ok (i := off) hb (by omega) c
    obtain ⟨m2, h2, n2, o2, b2, hb2, s2, c2⟩ := ih (off + 1) hb1 (by rw [s1]; omega)
    refine ⟨m2, ?_, n2.trans n1, fun q hq => (o2 q hq).trans (o1 q hq), b2, hb2, s2.trans s1, fun j => ?_⟩
    · rw [wrN, h1]; exact h2
    · rw [c2, c1]
      simp only [List.length_cons]
      by_cases hj : j = off
      · subst hj
        rw [if_neg (by omega), if_pos rfl, if_pos (by omega), Nat.sub_self]
        rfl
      · by_cases hj2 : off + 1 ≤ j ∧ j < off + 1 + cs.length
        · rw [if_pos hj2, if_pos (by omega), show j - off = (j - (off + 1)) + 1 by omega, List.getElem?_cons_succ]
        · rw [if_neg hj2, if_neg hj, if_neg (by omega)]

theorem memcpy_ok {m : Mem} {dst doff src soff : Nat} {cs : Str} {b : Blk} (hb : m.blk dst = some b) (hi : doff + cs.length ≤ b.size)
    (hs : Has m src soff cs) (hov : dst ≠ src) :
    ∃ m', memcpy dst doff src soff cs.length m = .ok m' ∧ m'.next = m.next ∧ (∀ q, q ≠ dst → m'.blk q = m.blk q) ∧
      ∃ b', m'.blk dst = some b' ∧ b'.size = b.size ∧
        ∀ j, b'.cell j = if doff ≤ j ∧ j < doff + cs.length then cs[j - doff]? else b.cell j := by
  unfold memcpy
  rw [if_neg (fun h => hov h.1)]
  change ∃ m', (rdN src m cs.length soff >>= _) = _ ∧ _
  rw [rdN_has hs]
  exact wrN_ok cs doff hb hi

/-- What an operation on the object `o` may do to the memory. -/
structure Upd (m : Mem) (o : Obj) (m' : Mem) (o' : Obj) : Prop where
  next : m.next ≤ m'.next
  ptr : o'.ptr = o.ptr ∨ (m.next ≤ o'.ptr ∧ o'.ptr < m'.next ∧ m'.blk o.ptr = none)
  other : ∀ q, q ≠ o.ptr → q ≠ o'.ptr → m'.blk q = m.blk q

theorem Upd.refl (m : Mem) (o : Obj) : Upd m o m o := ⟨le_rfl, .inl rfl, fun _ _ _ => rfl⟩

theorem Upd.trans {m m1 m2 : Mem} {o o1 o2 : Obj} (h1 : Upd m o m1 o1) (h2 : Upd m1 o1 m2 o2) (hlt : o.ptr < m.next)
    (hfr : ∀ q, m.next ≤ q → m.blk q = none) : Upd m o m2 o2 := by
  refine ⟨h1.next.trans h2.next, ?_, ?_⟩
  · rcases h1.ptr with e1 | ⟨a1, b1, c1⟩ <;> rcases h2.ptr with e2 | ⟨a2, b2, c2⟩
    · left; rw [e2, e1]
    · right
      rw [e1] at c2
      exact ⟨h1.next.trans a2, b2, c2⟩
    · right
      rw [e2]
      refine ⟨a1, lt_of_lt_of_le b1 h2.next, ?_⟩
      rw [h2.other _ (by omega) (by omega)]
      exact c1
    · right
      refine ⟨h1.next.trans a2, b2, ?_⟩
      have := h1.next
      rw [h2.other _ (by omega) (by omega)]
      exact c1
  · intro q hq hq2
    by_cases hq1 : q = o1.ptr
    · subst hq1
      rcases h1.ptr with e1 | ⟨a1, b1, c1⟩
      · exact absurd e1 hq
      · rcases h2.ptr with e2 | ⟨a2, b2, c2⟩
        · exact absurd e2.symm hq2
        · rw [c2, hfr _ a1]
    · rw [h2.other q hq1 hq2, h1.other q hq hq1]

/-- Nothing is allocated above `next`. -/
def Fresh (m : Mem) : Prop := ∀ q, m.next ≤ q → m.blk q = none

theorem Fresh.upd {m m' : Mem} {o o' : Obj} (h : Fresh m) (hu : Upd m o m' o') (ho : o.ptr < m.next) : Fresh m' := by
  intro q hq
  have := hu.next
  have hp : q ≠ o'.ptr := by
    rcases hu.ptr with e | ⟨-, b, -⟩
    · omega
    · omega
  rw [hu.other q (by omega) hp]
  exact h q (by omega)

theorem Rep.lt {m : Mem} {o : Obj} {bs : Str} (h : Rep m o bs) (hf : Fresh m) : o.ptr < m.next := by
  obtain ⟨b, hb, -⟩ := h
  by_contra hn
  rw [hf _ (by omega)] at hb
  cases hb

/-- Copying the contents of `o` into a fresh block of `size` characters. -/
theorem copy_block {m : Mem} {o : Obj} {bs : Str} (h : Rep m o bs) (hf : Fresh m) {size : Nat} (hs : bs.length < size) (hw : bs.length + 1 < 2 ^ 32) :
    ∃ m', memcpy (alloc size m).1 0 o.ptr 0 ((o.length + 1) % 2 ^ 32) (alloc size m).2 = .ok m' ∧ m'.next = m.next + 1 ∧
      (∀ q, q ≠ m.next → m'.blk q = m.blk q) ∧ Rep m' ⟨o.length, size, m.next⟩ bs := by
  have hlt := h.lt hf
  obtain ⟨b, hb, hsz, hl, hlt2, hc⟩ := h
  have hrep : Rep m o bs := ⟨b, hb, hsz, hl, hlt2, hc⟩
  have e1 : (o.length + 1) % 2 ^ 32 = (bs ++ [nul]).length := by
    rw [hl, List.length_append, List.length_singleton]
    exact Nat.mod_eq_of_lt hw
  have hha : Has (alloc size m).2 o.ptr 0 (bs ++ [nul]) := by
    obtain ⟨b', hb', r⟩ := hrep.has
    refine ⟨b', ?_, r⟩
    unfold alloc
    simp only [if_neg (show o.ptr ≠ m.next by omega)]
    exact hb'
  obtain ⟨m', h1, n1, o1, b1, hb1, s1, c1⟩ := memcpy_ok (m := (alloc size m).2) (dst := m.next) (doff := 0) (b := ⟨size, fun _ => none⟩)
    (by simp [alloc]) (by simp; omega) hha (by omega)
  rw [e1]
  refine ⟨m', h1, n1, fun q hq => ?_, b1, hb1, s1, hl, hs, fun i hi => ?_⟩
  · rw [o1 q hq]
    simp [alloc, hq]
  · rw [c1, if_pos ⟨by omega, by simp; omega⟩, Nat.sub_zero]

theorem free_ok {m : Mem} {p : Nat} {b : Blk} (hb : m.blk p = some b) :
    ∃ m', free p m = .ok m' ∧ m'.next = m.next ∧ m'.blk p = none ∧ ∀ q, q ≠ p → m'.blk q = m.blk q := by
  unfold free
  simp only [hb]
  exact ⟨_, rfl, rfl, by simp, fun q hq => by simp [hq]⟩

theorem grow_ok {m : Mem} {o : Obj} {bs : Str} (h : Rep m o bs) (hf : Fresh m) {ms : Nat} (hm : bs.length < ms)
    (hw : o.size + ms < 2 ^ 32) :
    ∃ o' m', grow ms o m = .ok (o', m') ∧ Upd m o m' o' ∧ Rep m' o' bs ∧ ms ≤ o'.size ∧ o'.size = (if ms > o.size then o.size + ms else o.size) := by
  unfold grow
  split
  · rename_i hg
    obtain ⟨m1, h1, n1, o1, r1⟩ := copy_block h hf (size := (o.size + ms) % 2 ^ 32) (by rw [Nat.mod_eq_of_lt hw]; omega)
      (by obtain ⟨_, _, _, _, h5, _⟩ := h; omega)
    have hlt := h.lt hf
    obtain ⟨b, hb, -⟩ := h
    obtain ⟨m2, h2, n2, f2, o2⟩ := free_ok (m := m1) (p := o.ptr) (b := b) (by rw [o1 _ (by omega)]; exact hb)
    refine ⟨⟨o.length, (o.size + ms) % 2 ^ 32, m.next⟩, m2, ?_, ?_, ?_, ?_, ?_⟩
    · change (memcpy _ _ _ _ _ _ >>= _) = _
      rw [h1]
      change (free o.ptr m1 >>= _) = _
      rw [h2]
      rfl
    · refine ⟨by omega, .inr ⟨le_rfl, show m.next < m2.next by omega, f2⟩, fun q hq hq2 => ?_⟩
      rw [o2 q hq, o1 q hq2]
    · obtain ⟨b1, hb1, rest⟩ := r1
      exact ⟨b1, by rw [o2 _ (show m.next ≠ o.ptr by omega)]; exact hb1, rest⟩
    · simp only [Nat.mod_eq_of_lt hw]; omega
    · simp only [Nat.mod_eq_of_lt hw]
  · rename_i hg
    exact ⟨o, m, rfl, Upd.refl m o, h, by omega, rfl⟩

/-- The tail of `_append`: `cs` written behind the contents, then the NUL. -/
theorem write_tail {m : Mem} {o : Obj} {bs cs : Str} (h : Rep m o bs) (hfit : bs.length + cs.length < o.size) (hw : o.size < 2 ^ 32)
    {m1 : Mem} (n1 : m1.next = m.next) (o1 : ∀ q, q ≠ o.ptr → m1.blk q = m.blk q) {b b1 : Blk} (hb : m.blk o.ptr = some b)
    (hb1 : m1.blk o.ptr = some b1) (s1 : b1.size = b.size)
    (c1 : ∀ j, b1.cell j = if o.length ≤ j ∧ j < o.length + cs.length then cs[j - o.length]? else b.cell j) :
    ∃ m2, wr o.ptr ((o.length + cs.length) % 2 ^ 32) nul m1 = .ok m2 ∧ m2.next = m.next ∧ (∀ q, q ≠ o.ptr → m2.blk q = m.blk q) ∧
      Rep m2 { o with length := (o.length + cs.length) % 2 ^ 32 } (bs ++ cs) := by
  obtain ⟨b0, hb0, hsz, hl, hlt, hc⟩ := h
  rw [hb] at hb0
  cases hb0
  have e : (o.length + cs.length) % 2 ^ 32 = bs.length + cs.length := by rw [hl]; exact Nat.mod_eq_of_lt (by omega)
  rw [e]
  obtain ⟨m2, h2, n2, o2, b2, hb2, s2, c2⟩ := wr_ok (i := bs.length + cs.length) hb1 (by rw [s1, hsz]; exact hfit) nul
  refine ⟨m2, h2, n2.trans n1, fun q hq => (o2 q hq).trans (o1 q hq), b2, hb2, by rw [s2, s1, hsz], by simp, by simpa using hfit, fun i hi => ?_⟩
  rw [List.length_append] at hi
  rw [c2, c1, hl]
  by_cases h1 : i = bs.length + cs.length
  · rw [if_pos h1, h1, List.getElem?_append_right (by simp)]
    simp
  · rw [if_neg h1]
    rw [List.getElem?_append_left (by simp; omega)]
    by_cases h3 : bs.length ≤ i
    · rw [if_pos ⟨h3, by omega⟩, List.getElem?_append_right h3]
    · rw [if_neg (by omega), hc i (by omega), List.getElem?_append_left (by omega), List.getElem?_append_left (by omega)]

theorem appendN_eq (n : Nat) (src : Src) (o : Obj) (m : Mem) {o1 : Obj} {m1 : Mem}
    (hg : grow ((n + o.length + 1) % 2 ^ 32) o m = .ok (o1, m1)) :
    appendN n src o m = if n > 0 then (do
      let m ← copyIn n src o1 m1
      let m ← wr o1.ptr ((o1.length + n) % 2 ^ 32) nul m
      .ok ({ o1 with length := (o1.length + n) % 2 ^ 32 }, m)) else .ok (o1, m1) := by
  unfold appendN
  rw [hg]
  rfl

/-- Appending characters that do not lie in the object itself. -/
theorem appendN_ok {m : Mem} {o : Obj} {bs cs : Str} (h : Rep m o bs) (hf : Fresh m) (hw : o.size + bs.length + cs.length + 1 < 2 ^ 32)
    (src : Src) (hsrc : (∃ t, src = .loc t ∧ cs <+: t) ∨ ∃ p off, src = .blk p off ∧ p ≠ o.ptr ∧ Has m p off cs) :
    ∃ o' m', appendN cs.length src o m = .ok (o', m') ∧ Upd m o m' o' ∧ Rep m' o' (bs ++ cs) ∧
      (o'.size = o.size ∨ o'.size < 2 * (bs.length + cs.length + 1)) := by
  have hlen : o.length = bs.length := h.choose_spec.2.2.1
  have e : (cs.length + o.length + 1) % 2 ^ 32 = cs.length + bs.length + 1 := by
    rw [hlen]; exact Nat.mod_eq_of_lt (by omega)
  obtain ⟨o1, m1, hg, hu, hr, hsz, hsz2⟩ := grow_ok h hf (ms := cs.length + bs.length + 1) (by omega) (by omega)
  have hlt := h.lt hf
  rw [← e] at hg
  rw [appendN_eq _ _ _ _ hg]
  have hs3 : o1.size = o.size ∨ o1.size < 2 * (bs.length + cs.length + 1) := by
    rw [hsz2]; split
    · right; omega
    · left; rfl
  by_cases h0 : cs.length > 0
  · rw [if_pos h0]
    obtain ⟨b1, hb1, s1, l1, lt1, c1⟩ := hr
    have hr : Rep m1 o1 bs := ⟨b1, hb1, s1, l1, lt1, c1⟩
    have hw1 : o1.size < 2 ^ 32 := by
      rw [hsz2]; split <;> omega
    have hwrite : ∃ m2, copyIn cs.length src o1 m1 = .ok m2 ∧ m2.next = m1.next ∧ (∀ q, q ≠ o1.ptr → m2.blk q = m1.blk q) ∧
          ∃ b2, m2.blk o1.ptr = some b2 ∧ b2.size = b1.size ∧
            ∀ j, b2.cell j = if o1.length ≤ j ∧ j < o1.length + cs.length then cs[j - o1.length]? else b1.cell j := by
      rcases hsrc with ⟨t, rfl, ht⟩ | ⟨p, off, rfl, hp, hh⟩
      · have ht2 : t.take cs.length = cs := (List.prefix_iff_eq_take.1 ht).symm
        rw [copyIn, if_neg (by have := ht.length_le; omega), ht2]
        exact wrN_ok cs o1.length hb1 (by rw [s1, l1]; omega)
      · have hne : p ≠ o1.ptr := by
          rcases hu.ptr with e1 | ⟨a, -, -⟩
          · rw [e1]; exact hp
          · intro hp1
            obtain ⟨b, hb, -⟩ := hh
            rw [hf p (by omega)] at hb
            cases hb
        rw [copyIn]
        refine memcpy_ok hb1 (by rw [s1, l1]; omega) ?_ (Ne.symm hne)
        obtain ⟨b, hb, rest⟩ := hh
        exact ⟨b, by rw [hu.other p hp hne]; exact hb, rest⟩
    obtain ⟨m2, h2, n2, o2, b2, hb2, s2, c2⟩ := hwrite
    obtain ⟨m3, h3, n3, o3, r3⟩ := write_tail hr (cs := cs) (by omega) hw1 n2 o2 hb1 hb2 s2 c2
    refine ⟨{ o1 with length := (o1.length + cs.length) % 2 ^ 32 }, m3, ?_, ?_, r3, hs3⟩
    · rw [h2]
      change (wr _ _ _ m2 >>= _) = _
      rw [h3]; rfl
    · refine ⟨by rw [n3]; exact hu.next, ?_, fun q hq hq2 => ?_⟩
      · rcases hu.ptr with e1 | ⟨a, b, c⟩
        · exact .inl e1
        · refine .inr ⟨a, by rw [n3]; exact b, ?_⟩
          rw [o3 _ (by omega)]; exact c
      · rw [o3 q hq2]; exact hu.other q hq hq2
  · have hc0 : cs = [] := List.length_eq_zero_iff.1 (by omega)
    rw [if_neg h0]
    exact ⟨o1, m1, rfl, hu, by rw [hc0, List.append_nil]; exact hr, hs3⟩

theorem sizeLoop_ok {cnt : Nat} {args : Bool} (h : cnt < 127 ∨ (args = false ∧ cnt < 2 ^ 30 - 1)) : ∃ n, sizeLoop cnt args 32 128 = .ok n := by
  have key : ∀ k j, j + 7 ≤ 30 → j + k = 32 → (cnt < 127 ∨ (args = false ∧ cnt < 2 ^ 30 - 1)) → ∃ n, sizeLoop cnt args k (128 * 2 ^ j) = .ok n := by
    intro k
    induction k with
    | zero => intro j h1 h2; omega
    | succ k ih =>
      intro j h1 h2 h3
      rw [sizeLoop]
      split
      · rename_i hge
        rcases h3 with h3 | ⟨ha, h3⟩
        · have : 2 ^ j ≥ 1 := Nat.one_le_two_pow
          omega
        · rw [ha]
          have hj : j + 7 < 30 := by
            by_contra hn
            have : j = 23 := by omega
            subst this
            norm_num at hge h3
            omega
          have hp : 2 ^ j ≤ 2 ^ 22 := Nat.pow_le_pow_right (by norm_num) (by omega)
          rw [if_neg (by simp), if_neg (by norm_num at hp ⊢; omega), ← ha, show 128 * 2 ^ j * 2 = 128 * 2 ^ (j + 1) by rw [pow_succ]; ring]
          exact ih (j + 1) (by omega) (by omega) (.inr ⟨ha, h3⟩)
      · exact ⟨_, rfl⟩
  simpa using key 32 0 (by omega) (by omega) h

theorem sizeLoop_long {cnt : Nat} (h : 127 ≤ cnt) : sizeLoop cnt true 32 128 = .error .vaReuse := by
  rw [sizeLoop, if_pos (by omega), if_pos rfl]

theorem appendF_ok {m : Mem} {o : Obj} {bs s : Str} (h : Rep m o bs) (hf : Fresh m) (fs : List Piece) (hr : render m fs = .ok s)
    (hfit : s.length < 127 ∨ (fs.any Piece.takesArg = false ∧ s.length < 2 ^ 30 - 1))
    (hw : o.size + bs.length + s.length + 1 < 2 ^ 32) :
    ∃ o' m', appendF fs o m = .ok (o', m') ∧ Upd m o m' o' ∧ Rep m' o' (bs ++ s.takeWhile (· ≠ nul)) ∧
      (o'.size = o.size ∨ o'.size < 2 * (bs.length + s.length + 1)) := by
  obtain ⟨n, hn⟩ := sizeLoop_ok hfit
  have hle : (s.takeWhile (· ≠ nul)).length ≤ s.length := (List.takeWhile_sublist _).length_le
  obtain ⟨o', m', h1, h2, h3, h4⟩ := appendN_ok h hf (cs := s.takeWhile (· ≠ nul)) (by omega) (.loc (s.takeWhile (· ≠ nul)))
    (.inl ⟨_, rfl, List.prefix_rfl⟩)
  refine ⟨o', m', ?_, h2, h3, h4.imp id (by omega)⟩
  unfold appendF
  rw [hr]
  change (sizeLoop _ _ _ _ >>= _) = _
  rw [hn]
  change appendN ((s.takeWhile (· ≠ nul)).length % 2 ^ 32) _ o m = _
  rw [Nat.mod_eq_of_lt (by omega)]
  exact h1

theorem appendF_long {m : Mem} (o : Obj) {s : Str} (fs : List Piece) (hr : render m fs = .ok s)
    (ha : fs.any Piece.takesArg = true) (hl : 127 ≤ s.length) : appendF fs o m = .error .vaReuse := by
  unfold appendF
  rw [hr]
  change (sizeLoop _ _ _ _ >>= _) = _
  rw [ha, sizeLoop_long hl]
  rfl

theorem clear_ok {m : Mem} {o : Obj} {bs : Str} (h : Rep m o bs) :
    ∃ m', clear o m = .ok ({ o with length := 0 }, m') ∧ m'.next = m.next ∧ (∀ q, q ≠ o.ptr → m'.blk q = m.blk q) ∧
      Rep m' { o with length := 0 } [] := by
  obtain ⟨b, hb, hsz, hl, hlt, hc⟩ := h
  obtain ⟨m', h1, n1, o1, b1, hb1, s1, c1⟩ := wr_ok (i := 0) hb (by omega) nul
  refine ⟨m', ?_, n1, o1, b1, hb1, by rw [s1, hsz], rfl, by simp; omega, fun i hi => ?_⟩
  · unfold clear; rw [h1]; rfl
  · have : i = 0 := by simpa using hi
    subst this
    rw [c1, if_pos rfl]; rfl

/-- Only the block of the object has changed. -/
theorem Upd.inPlace {m m' : Mem} {o o' : Obj} (hp : o'.ptr = o.ptr) (n : m'.next = m.next) (hq : ∀ q, q ≠ o.ptr → m'.blk q = m.blk q) :
    Upd m o m' o' := ⟨by omega, .inl hp, fun q h _ => hq q h⟩

end EdgeEval.CString
