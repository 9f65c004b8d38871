import Verif.Lemmas.MatchMemKofn
import Verif.Lemmas.MatchMain

/-! # Lemmas on the memory-level model of `match.cc`: the graph -/

namespace EdgeEval.MatchMem

open EdgeEval EdgeEval.CsaMem EdgeEval.Props

/-- Column `j` of a row. -/
def comp (j : Nat) (e : GEdge) : Int := if j = 0 then e.i else if j = 1 then e.j else e.c

/-- The rows written so far. -/
def rowCell (rows : List GEdge) (i j : Nat) : Option Int := (rows[i]?).map (comp j)

/-- State of the graph building: the rows written, the size of `outliers`, the stream position. -/
structure GInv (m cap : Nat) (rows : List GEdge) (pos : Nat) (s : GraphSt) : Prop where
  g : s.g.Is m 3 (rowCell rows)
  cnt : s.count = rows.length
  cap : s.outliers.size = cap
  pos : s.pos = pos

theorem putRow_ok {m cap pos : Nat} {rows : List GEdge} {s : GraphSt} (inv : GInv m cap rows pos s) (hm : rows.length < m) (e : GEdge)
    {i j c : Int} (hi : i = e.i) (hj : j = e.j) (hc : c = e.c) :
    ∃ s', putRow i j c s = .ok s' ∧ GInv m cap (rows ++ [e]) pos s' ∧ s'.outliers = s.outliers := by
  subst hi hj hc
  obtain ⟨a, ea, ha⟩ := inv.g.wr (i := s.count) (j := 0) (by rw [inv.cnt]; exact hm) (by omega) (e.i : Int)
  obtain ⟨b, eb, hb⟩ := ha.wr (i := s.count) (j := 1) (by rw [inv.cnt]; exact hm) (by omega) (e.j : Int)
  obtain ⟨c, ec, hc⟩ := hb.wr (i := s.count) (j := 2) (by rw [inv.cnt]; exact hm) (by omega) e.c
  unfold putRow
  rw [ea, ok_bind, eb, ok_bind, ec, ok_bind]
  refine ⟨_, rfl, ⟨hc.congr ?_, ?_, inv.cap, inv.pos⟩, rfl⟩
  · intro i hi j hj
    rw [inv.cnt]
    unfold rowCell comp
    by_cases h : i = rows.length
    · subst h
      rw [List.getElem?_append_right (le_refl _), Nat.sub_self]
      have : j = 0 ∨ j = 1 ∨ j = 2 := by omega
      rcases this with rfl | rfl | rfl <;> simp
    · rw [if_neg (fun hh => h hh.1), if_neg (fun hh => h hh.1), if_neg (fun hh => h hh.1)]
      by_cases hlt : i < rows.length
      · rw [List.getElem?_append_left hlt]
      · rw [List.getElem?_eq_none (by omega), List.getElem?_eq_none (by simp; omega)]
  · show s.count + 1 = _
    rw [inv.cnt, List.length_append]
    rfl

/-- A loop that appends one row per round. -/
theorem plain_loop {m cap pos : Nat} {rows : List GEdge} {s : GraphSt} (inv : GInv m cap rows pos s) (cnt : Nat) (f : Nat → GEdge)
    {body : Nat → GraphSt → Except MErr GraphSt} (hm : rows.length + cnt ≤ m)
    (hb : ∀ i < cnt, ∀ s, ∃ a b c : Int, a = (f i).i ∧ b = (f i).j ∧ c = (f i).c ∧ body i s = putRow a b c s) :
    ∃ s', forLoop body cnt 0 s = .ok s' ∧ GInv m cap (rows ++ (List.range cnt).map f) pos s' := by
  obtain ⟨s', e, h⟩ := forLoop_inv (f := body) (cnt := cnt) (lo := 0) (s := s)
    (fun i s => GInv m cap (rows ++ (List.range i).map f) pos s) (by simpa using inv) (by
      intro i s _ hi inv
      obtain ⟨a, b, c, ha, hb, hc, e⟩ := hb i (by omega) s
      obtain ⟨s', e', inv', _⟩ := putRow_ok inv (by simp; omega) (f i) ha hb hc
      refine ⟨s', e.trans e', ?_⟩
      rw [List.range_succ, List.map_append, ← List.append_assoc]
      exact inv')
  rw [Nat.zero_add] at h
  exact ⟨s', e, h⟩

theorem kRows_snoc (k n : Nat) (xs : Nat → ℚ) (cnt pos : Nat) :
    kRows k n xs (cnt + 1) pos = ((kRows k n xs cnt pos).1 ++ [(kOfN k n xs (kRows k n xs cnt pos).2).1],
      (kOfN k n xs (kRows k n xs cnt pos).2).2) := by
  induction cnt generalizing pos with
  | zero => rfl
  | succ cnt ih =>
    have e : ∀ c, kRows k n xs (c + 1) pos =
        ((kOfN k n xs pos).1 :: (kRows k n xs c (kOfN k n xs pos).2).1, (kRows k n xs c (kOfN k n xs pos).2).2) := fun _ => rfl
    rw [e (cnt + 1), ih, e cnt]
    rfl

theorem kRows_length (k n : Nat) (xs : Nat → ℚ) (cnt pos : Nat) : (kRows k n xs cnt pos).1.length = cnt := by
  induction cnt generalizing pos with
  | zero => rfl
  | succ cnt ih => rw [kRows_snoc]; simp [ih]

theorem kRows_get (k n : Nat) (xs : Nat → ℚ) (cnt pos i : Nat) (hi : i < cnt) :
    (kRows k n xs cnt pos).1.getD i [] = (kOfN k n xs (kRows k n xs i pos).2).1 := by
  induction cnt with
  | zero => omega
  | succ cnt ih =>
    rw [kRows_snoc, List.getD_eq_getElem?_getD]
    dsimp only
    by_cases h : i < cnt
    · rw [List.getElem?_append_left (by rw [kRows_length]; exact h), ← List.getD_eq_getElem?_getD, ih h]
    · obtain rfl : i = cnt := by omega
      rw [List.getElem?_append_right (by rw [kRows_length]), kRows_length, Nat.sub_self]
      rfl

/-- A loop that draws a row of `k` numbers and appends one row of the graph for each. -/
theorem rows_loop {m cap pos : Nat} {rows : List GEdge} {s : GraphSt} (inv : GInv m cap rows pos s) (k n cnt : Nat) (xs : Nat → ℚ)
    (hx : UnitStream xs) (hk : k ≤ n) (hcap : k ≤ cap) (f : Nat → Nat → GEdge)
    {body : Nat → Nat → GraphSt → Except MErr GraphSt} (hm : rows.length + k * cnt ≤ m)
    (hb : ∀ i < cnt, ∀ a, ∀ j < n, ∀ s, s.outliers.Has a (j : Int) →
      ∃ p q c : Int, p = (f i j).i ∧ q = (f i j).j ∧ c = (f i j).c ∧ body i a s = putRow p q c s) :
    ∃ s', forLoop (fun i s => draw k n xs s >>= fun s => forLoop (body i) k 0 s) cnt 0 s = .ok s' ∧
      GInv m cap (rows ++ (List.range cnt).flatMap fun i => ((kRows k n xs cnt pos).1.getD i []).map (f i)) (kRows k n xs cnt pos).2
        s' := by
  have hR := kRows_ok k n xs hx hk cnt pos
  have hlen : ∀ i ≤ cnt, ((List.range i).flatMap fun i => ((kRows k n xs cnt pos).1.getD i []).map (f i)).length = k * i := by
    intro i hi
    induction i with
    | zero => rfl
    | succ i ih =>
      rw [List.range_succ, List.flatMap_append, List.length_append, ih (by omega)]
      have := (GoodRows.getD hR (show i < cnt by omega)).1
      rw [List.flatMap_singleton, List.length_map, this, Nat.mul_add, Nat.mul_one]
  obtain ⟨s', e, h⟩ := forLoop_inv (f := fun i s => draw k n xs s >>= fun s => forLoop (body i) k 0 s) (cnt := cnt) (lo := 0) (s := s)
    (fun i s => GInv m cap (rows ++ (List.range i).flatMap fun i => ((kRows k n xs cnt pos).1.getD i []).map (f i))
      (kRows k n xs i pos).2 s) (by simpa [kRows] using inv) (by
      intro i s _ hi inv
      have hi' : i < cnt := by omega
      have hrow := GoodRows.getD hR hi'
      have hget := kRows_get k n xs cnt pos i hi'
      have hl := hlen i (by omega)
      have hk2 : k * i + k ≤ k * cnt := by
        have : k * (i + 1) ≤ k * cnt := Nat.mul_le_mul_left _ hi'
        rwa [Nat.mul_add, Nat.mul_one] at this
      generalize hpre : ((List.range i).flatMap fun i => ((kRows k n xs cnt pos).1.getD i []).map (f i)) = pre at *
      unfold draw
      rw [kOfNM_ok k n xs hx s.pos s.outliers hk (by rw [inv.cap]; exact hcap), ok_bind, ok_bind]
      rw [inv.pos, ← hget]
      have hpos : (kOfN k n xs (kRows k n xs i pos).2).2 = (kRows k n xs (i + 1) pos).2 := by rw [kRows_snoc]
      rw [hpos]
      generalize hL : (kRows k n xs cnt pos).1.getD i [] = L at *
      obtain ⟨s', e', h', _⟩ := forLoop_inv (f := body i) (cnt := k) (lo := 0)
        (s := { s with pos := (kRows k n xs (i + 1) pos).2, outliers := put s.outliers 0 L })
        (fun a t => GInv m cap (rows ++ pre ++ (L.take a).map (f i)) (kRows k n xs (i + 1) pos).2 t ∧
          t.outliers = put s.outliers 0 L)
        ⟨⟨by simpa using inv.g, by simpa using inv.cnt, inv.cap, rfl⟩, rfl⟩ (by
          rintro a t _ ha ⟨ginv, hout⟩
          have ha' : a < L.length := by rw [hrow.1]; omega
          have hj : L[a] < n := hrow.2.2 _ (List.getElem_mem ha')
          have hhas : t.outliers.Has a ((L[a] : Nat) : Int) := by
            rw [hout]
            have := put_has (b := s.outliers) (off := 0) (l := L) (by rw [inv.cap, hrow.1]; omega) ha'
            rwa [Nat.zero_add] at this
          obtain ⟨p, q, c, hp, hq, hc, e⟩ := hb i hi' a _ hj t hhas
          obtain ⟨t', e', inv', ho⟩ := putRow_ok ginv (by
            simp only [List.length_append, List.length_map, List.length_take, hl]
            omega) (f i L[a]) hp hq hc
          refine ⟨t', e.trans e', ?_, ho.trans hout⟩
          rw [List.take_add_one, List.getElem?_eq_getElem ha', List.map_append, ← List.append_assoc]
          exact inv')
      refine ⟨s', e', ?_⟩
      rw [Nat.zero_add, List.take_of_length_le (by rw [hrow.1])] at h'
      rw [List.range_succ, List.flatMap_append, ← List.append_assoc]
      rw [hpre, List.flatMap_singleton, hL]
      exact h')
  rw [Nat.zero_add] at h
  exact ⟨s', e, h⟩

/-- The rows after the id offsets. -/
def shiftRow (n : Nat) (e : GEdge) : GEdge := ⟨e.i + 1, e.j + (1 + n), e.c⟩

theorem offset_ok {n m : Nat} {rows : List GEdge} {g : Arr Int} (hg : g.Is m 3 (rowCell rows)) (hl : rows.length = m)
    (hr : ∀ e ∈ rows, e.i < n ∧ e.j < n) :
    ∃ g', forLoop (offsetRow n) m 0 g = .ok g' ∧ g'.blk = graphBlk (rows.map (toArc n)) := by
  obtain ⟨g', e, h⟩ := forLoop_inv (f := offsetRow n) (cnt := m) (lo := 0) (s := g)
    (fun i g => g.Is m 3 fun i' j => (rows[i']?).map fun e => if i' < i then comp j (shiftRow n e) else comp j e)
    (hg.congr fun i _ j _ => by simp [rowCell]) (by
      intro i g _ hi hg
      have hi' : i < rows.length := by omega
      have hmem := hr _ (List.getElem_mem hi')
      unfold offsetRow
      rw [hg.rd (x := ((rows[i].i : Nat) : Int)) (by omega) (by omega) (by rw [List.getElem?_eq_getElem hi']; simp [comp]), ok_bind,
        hg.rd (x := ((rows[i].j : Nat) : Int)) (by omega) (by omega) (by rw [List.getElem?_eq_getElem hi']; simp [comp]), ok_bind,
        need_ok (by omega), ok_bind, need_ok (by omega), ok_bind]
      obtain ⟨a, ea, ha⟩ := hg.wr (i := i) (j := 0) (by omega) (by omega) (((rows[i].i : Nat) : Int) + 1)
      obtain ⟨b, eb, hb⟩ := ha.wr (i := i) (j := 1) (by omega) (by omega) (((rows[i].j : Nat) : Int) + (1 + n))
      rw [ea, ok_bind, eb]
      refine ⟨_, rfl, hb.congr ?_⟩
      intro i' hi2 j hj
      by_cases e : i' = i
      · subst e
        rw [List.getElem?_eq_getElem hi']
        have : j = 0 ∨ j = 1 ∨ j = 2 := by omega
        rcases this with rfl | rfl | rfl <;> simp [comp, shiftRow]
      · rw [if_neg (fun hh => e hh.1), if_neg (fun hh => e hh.1)]
        congr 1
        funext x
        by_cases hlt : i' < i
        · rw [if_pos hlt, if_pos (by omega)]
        · rw [if_neg hlt, if_neg (by omega)])
  rw [Nat.zero_add] at h
  refine ⟨g', e, blk_ext ?_ fun k => ?_⟩
  · rw [h.size]
    show m * 3 = 3 * (rows.map (toArc n)).length
    rw [List.length_map, hl, Nat.mul_comm]
  · show _ = ((rows.map (toArc n))[k / 3]?).map _
    rw [List.getElem?_map]
    by_cases hk : k < m * 3
    · have e1 := h.cell (k / 3) (by omega) (k % 3) (by omega)
      rw [show k / 3 * 3 + k % 3 = k by omega] at e1
      have hlt : k / 3 < m := by omega
      rw [e1, List.getElem?_eq_getElem (by omega), Option.map_some, Option.map_some, Option.map_some, if_pos hlt]
      simp only [comp, shiftRow, toArc]
      congr 1
      split
      · rfl
      · split
        · push_cast; ring
        · rfl
    · rw [h.out k (by omega), List.getElem?_eq_none (by omega)]
      rfl

/-- The graph built in memory is the graph of the functional model. -/
theorem graph_ok (n1 n2 ow : Nat) (es : List MEdge) (xs : Nat → ℚ) (hx : UnitStream xs) (pos : Nat)
    (he : ∀ e ∈ es, e.i < n1 ∧ e.j < n2) :
    ∃ g, graph n1 n2 (announcedM n1 n2 es.length) ow es xs pos = .ok g ∧
      g.blk = graphBlk ((buildGraph n1 n2 ow es xs pos).map (toArc (n1 + n2))) := by
  have hlen := buildGraph_length n1 n2 ow es xs pos hx
  have hkind := fun e h => (buildGraph_kind (n1 := n1) (n2 := n2) (ow := ow) (edges := es) (pos := pos) hx (e := e) h).range he
  unfold graph
  generalize hm : announcedM n1 n2 es.length = m at *
  have hm' := hm
  unfold announcedM at hm'
  have k1 := kRows_ok _ _ xs hx (deg1_le n1) n1 pos
  have k2 := kRows_ok _ _ xs hx (deg1_le n2) n2 (kRows (deg1 n1) (n1 - 1) xs n1 pos).2
  have k3 := kRows_ok _ _ xs hx (deg3_le n1 n2) (max n1 n2) (kRows (deg1 n2) (n2 - 1) xs n2 (kRows (deg1 n1) (n1 - 1) xs n1 pos).2).2
  have l1 : (outlier1 n2 ow (kRows (deg1 n1) (n1 - 1) xs n1 pos).1).length = deg1 n1 * n1 := length_rows k1 _
  have l2 : (outlier2 n1 ow (kRows (deg1 n2) (n2 - 1) xs n2 (kRows (deg1 n1) (n1 - 1) xs n1 pos).2).1).length = deg1 n2 * n2 :=
    length_rows k2 _
  have l3 : (outlierOutlier n1 n2 ow (kRows (deg3 n1 n2) (min n1 n2) xs (max n1 n2)
      (kRows (deg1 n2) (n2 - 1) xs n2 (kRows (deg1 n1) (n1 - 1) xs n1 pos).2).2).1).length = deg3 n1 n2 * max n1 n2 :=
    length_rows k3 _
  -- real edges
  obtain ⟨s1, e1, i1⟩ := plain_loop (m := m) (cap := max (deg1 n1) (max (deg1 n2) (deg3 n1 n2))) (pos := pos) (rows := [])
    (s := ⟨Arr.new _ m 3, 0, malloc _ (max (deg1 n1) (max (deg1 n2) (deg3 n1 n2))), pos⟩)
    ⟨(Arr.is_new _ _ _).congr fun _ _ _ _ => by simp [rowCell], rfl, rfl, rfl⟩ es.length
    (fun a => let e := es.getD a ⟨0, 0, 0⟩; ⟨e.i, e.j, (rint100 e.d2 : Nat)⟩) (body := putReal n1 n2 es)
    (by simp only [List.length_nil]; omega) (by
      intro a ha s
      have hmem := he _ (List.getElem_mem ha)
      unfold putReal
      rw [at'_ok (List.getElem?_eq_getElem ha), ok_bind, need_ok hmem.1, ok_bind, need_ok hmem.2, ok_bind]
      refine ⟨_, _, _, ?_, ?_, ?_, rfl⟩ <;> simp [ha])
  have er : (List.range es.length).map (fun a => let e := es.getD a ⟨0, 0, 0⟩; (⟨e.i, e.j, (rint100 e.d2 : Nat)⟩ : GEdge)) =
      es.map fun e => (⟨e.i, e.j, (rint100 e.d2 : Nat)⟩ : GEdge) := by
    apply List.ext_getElem
    · simp
    · intro i h1 h2
      simp at h1
      simp [h1]
  rw [er, List.nil_append] at i1
  -- outliers of map 1
  obtain ⟨s2, e2, i2⟩ := rows_loop i1 (deg1 n1) (n1 - 1) n1 xs hx (deg1_le n1) (le_max_left _ _)
    (fun i j => ⟨i, n2 + (if j ≥ i then j + 1 else j), ow⟩) (body := putOut1 n1 n2 ow)
    (by rw [List.length_map]; omega) (by
      intro i hi a j hj s hs
      have h1 : (if (j : Int) ≥ i then (j : Int) + 1 else j) = ((if j ≥ i then j + 1 else j : Nat) : Int) := by
        by_cases h : j ≥ i
        · rw [if_pos h, if_pos (by exact_mod_cast h)]; rfl
        · rw [if_neg h, if_neg (by exact_mod_cast h)]
      have h2 : (if j ≥ i then j + 1 else j) < n1 ∧ (if j ≥ i then j + 1 else j) ≠ i := by split <;> omega
      unfold putOut1
      rw [hs.rd, ok_bind, h1]
      dsimp only
      generalize (if j ≥ i then j + 1 else j) = j' at *
      rw [need_ok (by omega), ok_bind, need_ok (by omega), ok_bind]
      exact ⟨_, _, _, rfl, by push_cast; rfl, rfl, rfl⟩)
  -- outliers of map 2
  obtain ⟨s3, e3, i3⟩ := rows_loop i2 (deg1 n2) (n2 - 1) n2 xs hx (deg1_le n2) ((le_max_left _ _).trans (le_max_right _ _))
    (fun j i => ⟨n1 + (if i ≥ j then i + 1 else i), j, ow⟩) (body := putOut2 n1 n2 ow)
    (by
      rw [List.length_append, List.length_map]
      have := l1
      unfold outlier1 at this
      rw [kRows_length] at this
      rw [this]
      omega) (by
      intro j hi a i hj s hs
      have h1 : (if (i : Int) ≥ j then (i : Int) + 1 else i) = ((if i ≥ j then i + 1 else i : Nat) : Int) := by
        by_cases h : i ≥ j
        · rw [if_pos h, if_pos (by exact_mod_cast h)]; rfl
        · rw [if_neg h, if_neg (by exact_mod_cast h)]
      have h2 : (if i ≥ j then i + 1 else i) < n2 ∧ (if i ≥ j then i + 1 else i) ≠ j := by split <;> omega
      unfold putOut2
      rw [hs.rd, ok_bind, h1]
      dsimp only
      generalize (if i ≥ j then i + 1 else i) = j' at *
      rw [need_ok (by omega), ok_bind, need_ok (by omega), ok_bind]
      exact ⟨_, _, _, by push_cast; rfl, rfl, rfl, rfl⟩)
  -- outlier to outlier
  obtain ⟨s4, e4, i4⟩ := rows_loop i3 (deg3 n1 n2) (min n1 n2) (max n1 n2) xs hx (deg3_le n1 n2) ((le_max_right _ _).trans (le_max_right _ _))
    (fun i j => if n1 < n2 then ⟨n1 + i, n2 + j, ow⟩ else ⟨n1 + j, n2 + i, ow⟩) (body := putOut3 n1 n2 ow)
    (by
      rw [List.length_append, List.length_append, List.length_map]
      have h1 := l1
      have h2 := l2
      unfold outlier1 at h1
      unfold outlier2 at h2
      rw [kRows_length] at h1 h2
      rw [h1, h2]
      omega) (by
      intro i hi a j hj s hs
      unfold putOut3
      rw [hs.rd, ok_bind, need_ok (by omega), ok_bind]
      by_cases h : n1 < n2
      · simp only [h, if_true]
        rw [need_ok (by omega), ok_bind, need_ok (by omega), ok_bind]
        exact ⟨_, _, _, by push_cast; rfl, by push_cast; rfl, rfl, rfl⟩
      · simp only [h, if_false]
        rw [need_ok (by omega), ok_bind, need_ok (by omega), ok_bind]
        exact ⟨_, _, _, by push_cast; rfl, by push_cast; rfl, rfl, rfl⟩)
  have q1 : (List.range n1).flatMap (fun i => ((kRows (deg1 n1) (n1 - 1) xs n1 pos).1.getD i []).map
      fun j => (⟨i, n2 + (if j ≥ i then j + 1 else j), ow⟩ : GEdge)) = outlier1 n2 ow (kRows (deg1 n1) (n1 - 1) xs n1 pos).1 := by
    unfold outlier1
    rw [kRows_length]
  have q2 : (List.range n2).flatMap (fun j => ((kRows (deg1 n2) (n2 - 1) xs n2 (kRows (deg1 n1) (n1 - 1) xs n1 pos).2).1.getD j []).map
      fun i => (⟨n1 + (if i ≥ j then i + 1 else i), j, ow⟩ : GEdge)) =
        outlier2 n1 ow (kRows (deg1 n2) (n2 - 1) xs n2 (kRows (deg1 n1) (n1 - 1) xs n1 pos).2).1 := by
    unfold outlier2
    rw [kRows_length]
  have q3 : (List.range (max n1 n2)).flatMap (fun i => ((kRows (deg3 n1 n2) (min n1 n2) xs (max n1 n2)
      (kRows (deg1 n2) (n2 - 1) xs n2 (kRows (deg1 n1) (n1 - 1) xs n1 pos).2).2).1.getD i []).map
      fun j => (if n1 < n2 then ⟨n1 + i, n2 + j, ow⟩ else ⟨n1 + j, n2 + i, ow⟩ : GEdge)) =
        outlierOutlier n1 n2 ow (kRows (deg3 n1 n2) (min n1 n2) xs (max n1 n2)
      (kRows (deg1 n2) (n2 - 1) xs n2 (kRows (deg1 n1) (n1 - 1) xs n1 pos).2).2).1 := by
    unfold outlierOutlier
    rw [kRows_length]
  rw [q1, q2, q3] at i4
  -- overlay
  obtain ⟨s5, e5, i5⟩ := plain_loop i4 n1 (fun i => ⟨i, n2 + i, (ow * multiplier : Nat)⟩)
    (body := fun i s => putRow i (n2 + i : Nat) (ow * multiplier : Nat) s)
    (by simp only [List.length_append, List.length_map, l1, l2, l3]; omega)
    (fun i _ s => ⟨_, _, _, rfl, rfl, rfl, rfl⟩)
  obtain ⟨s6, e6, i6⟩ := plain_loop i5 n2 (fun i => ⟨n1 + i, i, (ow * multiplier : Nat)⟩)
    (body := fun i s => putRow (n1 + i : Nat) i (ow * multiplier : Nat) s)
    (by simp only [List.length_append, List.length_map, List.length_range, l1, l2, l3]; omega)
    (fun i _ s => ⟨_, _, _, rfl, rfl, rfl, rfl⟩)
  have hb : (es.map (fun e => (⟨e.i, e.j, (rint100 e.d2 : Nat)⟩ : GEdge))) ++ outlier1 n2 ow (kRows (deg1 n1) (n1 - 1) xs n1 pos).1 ++
      outlier2 n1 ow (kRows (deg1 n2) (n2 - 1) xs n2 (kRows (deg1 n1) (n1 - 1) xs n1 pos).2).1 ++
      outlierOutlier n1 n2 ow (kRows (deg3 n1 n2) (min n1 n2) xs (max n1 n2)
        (kRows (deg1 n2) (n2 - 1) xs n2 (kRows (deg1 n1) (n1 - 1) xs n1 pos).2).2).1 ++
      (List.range n1).map (fun i => (⟨i, n2 + i, (ow * multiplier : Nat)⟩ : GEdge)) ++
      (List.range n2).map (fun i => (⟨n1 + i, i, (ow * multiplier : Nat)⟩ : GEdge)) = buildGraph n1 n2 ow es xs pos := by
    unfold buildGraph overlay
    simp only [List.append_assoc]
  rw [hb] at i6
  obtain ⟨g, eg, hg⟩ := offset_ok (n := n1 + n2) i6.g hlen fun e h => ⟨(hkind e h).1, (hkind e h).2.1⟩
  refine ⟨g, ?_, hg⟩
  dsimp only
  rw [e1, ok_bind]
  rw [show forLoop (outlierLoop1 n1 n2 ow (deg1 n1) xs) n1 0 s1 = .ok s2 from e2, ok_bind]
  rw [show forLoop (outlierLoop2 n1 n2 ow (deg1 n2) xs) n2 0 s2 = .ok s3 from e3, ok_bind]
  rw [show forLoop (outlierLoop3 n1 n2 ow (deg3 n1 n2) xs) (max n1 n2) 0 s3 = .ok s4 from e4, ok_bind]
  rw [e5, ok_bind, e6, ok_bind, need_ok (by rw [i6.cnt, hlen]), ok_bind, eg]

end EdgeEval.MatchMem
