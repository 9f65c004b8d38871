import Verif.Spec.MatFile
import Verif.Model.SbdFiles
import Mathlib.Algebra.BigOperators.Intervals
import Mathlib.Tactic.Ring

/-!
# C80: reading MATLAB files
-/

namespace EdgeEval.Props

open Text MatFile ConvertSbd Spec
open Samples (assert)

/-! ## Sparse matrices -/

theorem scatter_fold (m : Csc) (j : Nat) (i' j' : Nat) : ∀ (n a : Nat) (b : Nat → Nat → Int),
    ((List.range' a n).foldl
      (fun b k => fun i' j' => if i' = m.indices.getD k 0 ∧ j' = j then b i' j' + m.data.getD k 0 else b i' j') b) i' j' =
      b i' j' + if j' = j then
        ∑ k ∈ (Finset.Ico a (a + n)).filter fun k => m.indices.getD k 0 = i', m.data.getD k 0 else 0 := by
  intro n
  induction n with
  | zero => intro a b; simp
  | succ n ih =>
    intro a b
    rw [List.range'_succ, List.foldl_cons, ih]
    have hins : Finset.Ico a (a + (n + 1)) = insert a (Finset.Ico (a + 1) (a + 1 + n)) := by
      ext x
      simp only [Finset.mem_Ico, Finset.mem_insert]
      omega
    rw [hins, Finset.filter_insert]
    by_cases hj : j' = j
    · by_cases hi : m.indices.getD a 0 = i'
      · rw [if_pos ⟨hi.symm, hj⟩, if_pos hj, if_pos hj, if_pos hi, Finset.sum_insert (by simp)]
        ring
      · rw [if_neg (fun h => hi h.1.symm), if_pos hj, if_pos hj, if_neg hi]
    · simp [hj]

theorem scatterCol_eq (m : Csc) (b : Nat → Nat → Int) (j i' j' : Nat) :
    scatterCol m b j i' j' = b i' j' + if j' = j then stored m i' j else 0 := by
  unfold scatterCol stored
  rw [scatter_fold]
  by_cases h : m.indptr.getD j 0 ≤ m.indptr.getD (j + 1) 0
  · rw [Nat.add_sub_of_le h]
  · rw [Nat.sub_eq_zero_of_le (by omega)]
    rw [Finset.Ico_eq_empty (by omega), Finset.Ico_eq_empty (by omega)]

/-- C80: the dense form of a sparse matrix has the size of the matrix and at every place the sum of the entries stored
for it. -/
theorem C80_dense (m : Csc) : ∃ d, sparse2numpy (.csc m) = .ok d ∧ d.rows = m.rows ∧ d.cols = m.cols ∧
    ∀ i, ∀ j < m.cols, d.at_ i j = stored m i j := by
  refine ⟨_, rfl, rfl, rfl, fun i j hj => ?_⟩
  have key : ∀ n (b : Nat → Nat → Int), ((List.range n).foldl (scatterCol m) b) i j =
      b i j + if j < n then stored m i j else 0 := by
    intro n
    induction n with
    | zero => intro b; simp
    | succ n ih =>
      intro b
      rw [List.range_succ, List.foldl_append, List.foldl_cons, List.foldl_nil, scatterCol_eq, ih]
      by_cases h1 : j < n
      · rw [if_pos h1, if_neg (by omega), if_pos (by omega), add_zero]
      · by_cases h2 : j = n
        · subst h2; simp
        · rw [if_neg h1, if_neg h2, if_neg (by omega), add_zero]
  show ((List.range m.cols).foldl (scatterCol m) fun _ _ => 0) i j = _
  rw [key, if_pos hj, zero_add]

/-- Every picture can be stored: column after column. -/
def fullCsc (h w : Nat) (f : Nat → Nat → Int) : Csc :=
  ⟨h, w, (List.range (h * w)).map fun k => f (k % h) (k / h), (List.range (h * w)).map (· % h),
    (List.range (w + 1)).map (· * h)⟩

theorem getD_map_range {α : Type} (n k : Nat) (g : Nat → α) (d : α) (h : k < n) :
    ((List.range n).map g).getD k d = g k := by
  simp [List.getD, h]

/-- C80: every picture is the dense form of some sparse matrix. -/
theorem C80_every_picture (h w : Nat) (f : Nat → Nat → Int) :
    ∃ m : Csc, m.rows = h ∧ m.cols = w ∧ ∀ i < h, ∀ j < w, stored m i j = f i j := by
  refine ⟨fullCsc h w f, rfl, rfl, fun i hi j hj => ?_⟩
  have hh : 0 < h := by omega
  have e1 : (fullCsc h w f).indptr.getD j 0 = j * h := getD_map_range _ _ _ _ (by omega)
  have e2 : (fullCsc h w f).indptr.getD (j + 1) 0 = (j + 1) * h := getD_map_range _ _ _ _ (by omega)
  have hle : (j + 1) * h ≤ h * w := by rw [Nat.mul_comm h w]; exact Nat.mul_le_mul_right h hj
  unfold stored
  rw [e1, e2, Finset.sum_eq_single (j * h + i)]
  · have hk : j * h + i < h * w := by
      have : (j + 1) * h = j * h + h := by ring
      omega
    show ((List.range (h * w)).map fun k => f (k % h) (k / h)).getD _ 0 = _
    rw [getD_map_range _ _ _ _ hk, Nat.mul_comm j h, Nat.mul_add_mod, Nat.mod_eq_of_lt hi,
      Nat.mul_add_div hh, Nat.div_eq_of_lt hi, Nat.add_zero]
  · intro k hk hne
    exfalso
    rw [Finset.mem_filter, Finset.mem_Ico] at hk
    obtain ⟨⟨k1, k2⟩, k3⟩ := hk
    have k4 : ((List.range (h * w)).map (· % h)).getD k 0 = i := k3
    rw [getD_map_range _ _ _ _ (by omega)] at k4
    have hd : k / h = j := by
      apply Nat.div_eq_of_lt_le
      · exact k1
      · exact k2
    have := Nat.div_add_mod k h
    rw [hd, k4, Nat.mul_comm] at this
    exact hne this.symm
  · intro hn
    exfalso
    apply hn
    rw [Finset.mem_filter, Finset.mem_Ico]
    have : (j + 1) * h = j * h + h := by ring
    refine ⟨⟨by omega, by omega⟩, ?_⟩
    show ((List.range (h * w)).map (· % h)).getD _ 0 = i
    rw [getD_map_range _ _ _ _ (by omega), Nat.mul_comm j h, Nat.mul_add_mod, Nat.mod_eq_of_lt hi]

/-- The three entries of a 2×3 matrix; two of them are stored for the same place. -/
example : ∃ d, sparse2numpy (.csc ⟨2, 3, [1, 1, 5], [1, 1, 0], [0, 2, 2, 3]⟩) = .ok d ∧
    d.at_ 1 0 = 2 ∧ d.at_ 0 2 = 5 ∧ d.at_ 0 0 = 0 ∧ d.at_ 1 1 = 0 :=
  ⟨_, rfl, by decide, by decide, by decide, by decide⟩

/-- C80: what is not a sparse matrix is refused. -/
theorem C80_not_sparse (v : PyVal) : (∃ d, sparse2numpy v = .ok d) ↔ ∃ m, v = .csc m := by
  constructor
  · rintro ⟨d, h⟩
    cases v <;> first | exact ⟨_, rfl⟩ | exact absurd h (by simp [sparse2numpy])
  · rintro ⟨m, rfl⟩
    exact ⟨_, rfl⟩

/-! ## The pieces -/

theorem mapM_range_ok {β : Type} (n : Nat) (f : Nat → Except PyErr β) (g : Nat → β) (h : ∀ k < n, f k = .ok (g k)) :
    (List.range n).mapM f = .ok ((List.range n).map g) := by
  have : ∀ l : List Nat, (∀ k ∈ l, f k = .ok (g k)) → l.mapM f = .ok (l.map g) := by
    intro l
    induction l with
    | nil => intro _; rfl
    | cons x l ih =>
      intro hl
      rw [List.mapM_cons, hl x (by simp), ih fun y hy => hl y (by simp [hy])]
      rfl
  exact this _ fun k hk => h k (List.mem_range.1 hk)

/-- A stored 0/1 matrix of the right size becomes the plane. -/
theorem plane_ok (m : Csc) (b : MLEdges) (k : Nat) (h1 : m.rows = b.h) (h2 : m.cols = b.w)
    (hs : ∀ i < b.h, ∀ j < b.w, stored m i j = if b.at_ k i j then 1 else 0) :
    ∃ p : Nat → Nat → Nat, (do let d ← sparse2numpy (.csc m); assignPlane b.h b.w d) = .ok p ∧
      ∀ i < b.h, ∀ j < b.w, p i j = if b.at_ k i j then 1 else 0 := by
  obtain ⟨d, e, d1, d2, d3⟩ := C80_dense m
  refine ⟨_, by rw [e]; show assignPlane b.h b.w d = _; rw [assignPlane, if_pos ⟨Or.inl (d1.trans h1), Or.inl (d2.trans h2)⟩], ?_⟩
  intro i hi j hj
  have hi' : (if d.rows = 1 then 0 else i) = i := by split <;> omega
  have hj' : (if d.cols = 1 then 0 else j) = j := by split <;> omega
  show (d.at_ (if d.rows = 1 then 0 else i) (if d.cols = 1 then 0 else j) % 256).toNat = _
  rw [hi', hj', d3 i j (by omega), hs i hi j hj]
  split <;> rfl

theorem stackOf_ok (seg cats bv : PyVal) (entry : PyVal → Except PyErr PyVal) (b : MLEdges)
    (hseg : segSize seg = .ok (b.h, b.w)) (hlen : lenOf bv = .ok b.n)
    (hent : ∀ k < b.n, ∃ m, (do let x ← atOne bv k; entry x) = .ok (.csc m) ∧ m.rows = b.h ∧ m.cols = b.w ∧
      ∀ i < b.h, ∀ j < b.w, stored m i j = if b.at_ k i j then 1 else 0) :
    ∃ r, stackOf seg cats bv entry = .ok r ∧ r.n = b.n ∧ r.h = b.h ∧ r.w = b.w ∧ r.seg = seg ∧ r.cats = cats ∧
      ∀ k < b.n, ∀ i < b.h, ∀ j < b.w, r.bdry k i j = if b.at_ k i j then 1 else 0 := by
  have hp : ∀ k, ∃ p : Nat → Nat → Nat, k < b.n →
      ((do
        let x ← atOne bv k
        let y ← entry x
        let d ← sparse2numpy y
        assignPlane b.h b.w d) : Except PyErr _) = .ok p ∧ ∀ i < b.h, ∀ j < b.w, p i j = if b.at_ k i j then 1 else 0 := by
    intro k
    by_cases hk : k < b.n
    · obtain ⟨m, e, h1, h2, h3⟩ := hent k hk
      obtain ⟨p, q1, q2⟩ := plane_ok m b k h1 h2 h3
      refine ⟨p, fun _ => ⟨?_, q2⟩⟩
      cases ha : atOne bv k with
      | error er => rw [ha] at e; cases e
      | ok x =>
        rw [ha] at e
        have e' : entry x = .ok (.csc m) := e
        show (do let y ← entry x; let d ← sparse2numpy y; assignPlane b.h b.w d) = _
        rw [e']
        exact q1
    · exact ⟨fun _ _ => 0, fun h => absurd h hk⟩
  choose p hp using hp
  have hm := mapM_range_ok b.n _ p fun k hk => (hp k hk).1
  refine ⟨⟨b.n, b.h, b.w, fun k i j => (((List.range b.n).map p).getD k fun _ _ => 0) i j, seg, cats⟩, ?_, rfl, rfl, rfl,
    rfl, rfl, ?_⟩
  · unfold stackOf
    simp only [hseg, hlen, bind, Except.bind] at hm ⊢
    rw [hm]
  · intro k hk i hi j hj
    show (((List.range b.n).map p).getD k fun _ _ => 0) i j = _
    rw [getD_map_range _ _ _ _ hk]
    exact (hp k hk).2 i hi j hj

/-! ## Categories -/

theorem catsOld_vec {v : MVal} {l : List Nat} (h : IsVector v l) :
    ∃ g, catsOld (scipyOf v) = .ok (.num [l.length] g) ∧ ∀ k < l.length, g [k] = l.getD k 0 := by
  rcases h with ⟨f, rfl, hf⟩ | ⟨f, rfl, hf⟩
  · by_cases h1 : l.length = 1
    · refine ⟨fun _ => f 0 0, ?_, ?_⟩
      · simp [catsOld, scipyOf, shapeOf, squeezeOf, newAxis, h1, unsqueeze, bind, Except.bind]
      · intro k hk
        obtain rfl : k = 0 := by omega
        exact hf 0 hk
    · refine ⟨fun ix => f 0 (ix.headD 0), ?_, ?_⟩
      · simp [catsOld, scipyOf, shapeOf, squeezeOf, h1, unsqueeze, bind, Except.bind]
      · intro k hk
        exact hf k hk
  · by_cases h1 : l.length = 1
    · refine ⟨fun _ => f 0 0, ?_, ?_⟩
      · simp [catsOld, scipyOf, shapeOf, squeezeOf, newAxis, h1, unsqueeze, bind, Except.bind]
      · intro k hk
        obtain rfl : k = 0 := by omega
        exact hf 0 hk
    · refine ⟨fun ix => f (ix.headD 0) 0, ?_, ?_⟩
      · simp [catsOld, scipyOf, shapeOf, squeezeOf, h1, unsqueeze, bind, Except.bind]
      · intro k hk
        exact hf k hk

theorem catsNew_vec {v : MVal} {l : List Nat} (h : IsVector v l) :
    ∃ g, catsNew (pymatOf v) = .ok (.num [l.length] g) ∧ ∀ k < l.length, g [k] = l.getD k 0 := by
  have hnil : ∀ w : MVal, l.length = 0 → pymatOf w = .num [0] (fun _ => 0) →
      ∃ g, catsNew (pymatOf w) = .ok (.num [l.length] g) ∧ ∀ k < l.length, g [k] = l.getD k 0 := by
    intro w h0 hw
    refine ⟨fun _ => 0, ?_, fun k hk => by omega⟩
    rw [hw, h0]
    rfl
  have hone : ∀ (f : Nat → Nat → Int), l.length = 1 → f 0 0 = l.getD 0 0 → ∃ g, catsNew (.int (f 0 0)) = .ok (.num [l.length] g) ∧
      ∀ k < l.length, g [k] = l.getD k 0 := by
    intro f h1 hf
    refine ⟨fun _ => f 0 0, by rw [h1]; rfl, fun k hk => ?_⟩
    obtain rfl : k = 0 := by omega
    exact hf
  rcases h with ⟨f, rfl, hf⟩ | ⟨f, rfl, hf⟩
  · by_cases h0 : l.length = 0
    · exact hnil _ h0 (by simp [pymatOf, h0])
    by_cases h1 : l.length = 1
    · have := hone f h1 (hf 0 (by omega))
      simpa [pymatOf, h1] using this
    · refine ⟨fun ix => f 0 (ix.getD 0 0), ?_, fun k hk => hf k hk⟩
      simp [pymatOf, h0, h1, catsNew, shapeOf, assert, bind, Except.bind]
  · by_cases h0 : l.length = 0
    · exact hnil _ h0 (by simp [pymatOf, h0])
    by_cases h1 : l.length = 1
    · have := hone f h1 (hf 0 (by omega))
      simpa [pymatOf, h1] using this
    · refine ⟨fun ix => f (ix.getD 0 0) 0, ?_, fun k hk => hf k hk⟩
      simp [pymatOf, h0, h1, catsNew, shapeOf, assert, bind, Except.bind]

/-! ## The annotations -/

theorem old_ok {vb vs vc : MVal} {b : MLEdges} {s : Img Nat} {l : List Nat} (h : IsAnnotation vb vs vc b s l) :
    ∃ cats r, catsOld (scipyOf vc) = .ok cats ∧
      stackOf (scipyOf vs) cats (scipyOf vb) (fun x => atOne x 0) = .ok r ∧ Returns r b s l := by
  obtain ⟨g, c1, c2⟩ := catsOld_vec h.cats
  obtain ⟨fs, rfl, hs⟩ := h.seg
  obtain ⟨fb, rfl, hb⟩ := h.bdry
  obtain ⟨r, r1, r2, r3, r4, r5, r6, r7⟩ := stackOf_ok (scipyOf (.num s.rows s.cols fs)) (.num [l.length] g)
    (scipyOf (.cell b.n 1 fb)) (fun x => atOne x 0) b
    (by simp [scipyOf, segSize, shapeOf, assert, bind, Except.bind, h.rows, h.cols])
    rfl
    (fun k hk => by
      obtain ⟨m, m1, m2⟩ := hb k hk
      refine ⟨m, ?_, m2⟩
      simp [scipyOf, atOne, hk, m1, bind, Except.bind])
  refine ⟨_, r, c1, r1, ⟨r2, r3, r4⟩, r7, ⟨_, r5, ?_⟩, ⟨g, r6, c2⟩⟩
  intro i hi j hj
  exact hs i hi j hj

theorem new_ok {vb vs vc : MVal} {b : MLEdges} {s : Img Nat} {l : List Nat} (h : IsAnnotation vb vs vc b s l)
    (hn : b.n ≠ 1) (hh : 2 ≤ b.h) (hw : 2 ≤ b.w) :
    ∃ cats r, catsNew (pymatOf vc) = .ok cats ∧
      stackOf (pymatOf vs) cats (pymatOf vb) (fun x => .ok x) = .ok r ∧ Returns r b s l := by
  obtain ⟨g, c1, c2⟩ := catsNew_vec h.cats
  obtain ⟨fs, rfl, hs⟩ := h.seg
  obtain ⟨fb, rfl, hb⟩ := h.bdry
  have hseg : pymatOf (.num s.rows s.cols fs) = .num [s.rows, s.cols] fun ix => fs (ix.getD 0 0) (ix.getD 1 0) := by
    have h1 := h.rows
    have h2 := h.cols
    rw [pymatOf, if_neg (Nat.mul_ne_zero (by omega) (by omega)), if_neg (by omega), if_neg (by omega), if_neg (by omega)]
  have hcell : ∃ f', pymatOf (.cell b.n 1 fb) = .list b.n f' ∧ ∀ k < b.n, f' k = pymatOf (fb k 0) := by
    by_cases h0 : b.n = 0
    · exact ⟨fun _ => .int 0, by simp [pymatOf, h0], fun k hk => by omega⟩
    · refine ⟨fun k => pymatOf (fb k 0), ?_, fun _ _ => rfl⟩
      rw [pymatOf, if_neg (by omega), if_neg (by omega), if_neg hn, if_pos rfl]
  obtain ⟨f', e', hf'⟩ := hcell
  obtain ⟨r, r1, r2, r3, r4, r5, r6, r7⟩ := stackOf_ok (pymatOf (.num s.rows s.cols fs)) (.num [l.length] g)
    (pymatOf (.cell b.n 1 fb)) (fun x => .ok x) b
    (by rw [hseg]; simp [segSize, shapeOf, assert, bind, Except.bind, h.rows, h.cols])
    (by rw [e']; rfl)
    (fun k hk => by
      obtain ⟨m, m1, m2⟩ := hb k hk
      refine ⟨m, ?_, m2⟩
      rw [e']
      simp [atOne, hk, hf' k hk, m1, pymatOf, bind, Except.bind])
  refine ⟨_, r, c1, r1, ⟨r2, r3, r4⟩, r7, ⟨_, r5.trans hseg, ?_⟩, ⟨g, r6, c2⟩⟩
  intro i hi j hj
  exact hs i hi j hj

theorem loadVar_ok {env : MatEnv} {path : Str} {f : MFile} {name : Str} {v : MVal} (hf : env.files path = some f)
    (hv : HasVar f name v) :
    loadVar env path false name = .ok (scipyOf v) ∧
    (env.newReader = true → loadVar env path true name = .ok (pymatOf v)) := by
  unfold loadVar
  rw [hf]
  constructor
  · simp [hv.1, hv.2]
  · intro h
    simp [hv.1, hv.2, h]

theorem atPair_recs (names : List Str) (vals : Nat → PyVal) :
    atPair (.recs [1, 1] names vals) 0 = .ok (.void names vals) := rfl

theorem atOne_void (names : List Str) (vals : Nat → PyVal) (k : Nat) (h : k < names.length) :
    atOne (.void names vals) k = .ok (vals k) := by rw [atOne, if_pos h]

/-! ## SBD -/

/-- C80: the old loader reads a class file by the position of the fields, whatever their names. -/
theorem C80_cls_by_position (env : MatEnv) (path : Str) (f : MFile) (c : ClsMat) (hf : env.files path = some f)
    (names : List Str) (h3 : 3 ≤ names.length) (x : Nat → MVal) (hv : HasVar f "GTcls".toList (.struct names x))
    (ha : IsAnnotation (x 0) (x 1) (x 2) c.bdry c.seg c.present) :
    ∃ r, loadCls env path false = .ok r ∧ Returns r c.bdry c.seg c.present := by
  obtain ⟨cats, r, c1, c2, c3⟩ := old_ok ha
  refine ⟨r, ?_, c3⟩
  have e0 : (0 : Nat) < names.length := by omega
  have e1 : (1 : Nat) < names.length := by omega
  have e2 : (2 : Nat) < names.length := by omega
  rw [loadCls, if_neg (by decide), clsOld, (loadVar_ok hf hv).1, scipyOf]
  simp only [bind, Except.bind, atPair_recs, atOne_void _ _ _ e0, atOne_void _ _ _ e1, atOne_void _ _ _ e2, c1, c2]

/-- C80: the new loader reads a class file by the names of the fields, whatever their order; it needs at least two
classes (or none) and a picture with at least two rows and columns. -/
theorem C80_cls_by_name (env : MatEnv) (path : Str) (f : MFile) (c : ClsMat) (hf : env.files path = some f)
    (hr : env.newReader = true) (names : List Str) (x : Nat → MVal) (hv : HasVar f "GTcls".toList (.struct names x))
    (vb vs vc : MVal) (hb : HasField names x "Boundaries".toList vb) (hs : HasField names x "Segmentation".toList vs)
    (hc : HasField names x "CategoriesPresent".toList vc) (ha : IsAnnotation vb vs vc c.bdry c.seg c.present)
    (hn : c.bdry.n ≠ 1) (hh : 2 ≤ c.bdry.h) (hw : 2 ≤ c.bdry.w) :
    ∃ r, loadCls env path true = .ok r ∧ Returns r c.bdry c.seg c.present := by
  obtain ⟨cats, r, c1, c2, c3⟩ := new_ok ha hn hh hw
  refine ⟨r, ?_, c3⟩
  rw [loadCls, if_pos rfl, clsNew, (loadVar_ok hf hv).2 hr, pymatOf]
  simp only [bind, Except.bind, keyOf, if_pos hb.1, if_pos hs.1, if_pos hc.1, hb.2, hs.2, hc.2, c1, c2]

/-- C80: a class file is read back exactly: with the old loader always, with the new one when there are at least two
classes and the picture has at least two rows and columns. -/
theorem C80_cls (env : MatEnv) (path : Str) (f : MFile) (c : ClsMat) (hf : env.files path = some f)
    (h : IsClsFile f c) :
    (∃ r, loadCls env path false = .ok r ∧ Returns r c.bdry c.seg c.present) ∧
    (env.newReader = true → 2 ≤ c.bdry.n → 2 ≤ c.bdry.h → 2 ≤ c.bdry.w →
      ∃ r, loadCls env path true = .ok r ∧ Returns r c.bdry c.seg c.present) := by
  obtain ⟨x, hv, ha⟩ := h
  refine ⟨C80_cls_by_position env path f c hf _ (by decide) x hv ha, fun hr hn hh hw => ?_⟩
  exact C80_cls_by_name env path f c hf hr _ x hv _ _ _ ⟨by decide, rfl⟩ ⟨by decide, rfl⟩ ⟨by decide, rfl⟩ ha (by omega) hh hw

/-- C80: the old loader reads an instance file by position, too. -/
theorem C80_inst_by_position (env : MatEnv) (path : Str) (f : MFile) (c : InstMat) (hf : env.files path = some f)
    (names : List Str) (h3 : 3 ≤ names.length) (x : Nat → MVal) (hv : HasVar f "GTinst".toList (.struct names x))
    (ha : IsAnnotation (x 1) (x 0) (x 2) c.bdry c.seg c.cats) :
    ∃ r, loadInst env path false = .ok r ∧ Returns r c.bdry c.seg c.cats := by
  obtain ⟨cats, r, c1, c2, c3⟩ := old_ok ha
  refine ⟨r, ?_, c3⟩
  have e0 : (0 : Nat) < names.length := by omega
  have e1 : (1 : Nat) < names.length := by omega
  have e2 : (2 : Nat) < names.length := by omega
  rw [loadInst, if_neg (by decide), instOld, (loadVar_ok hf hv).1, scipyOf]
  simp only [bind, Except.bind, atPair_recs, atOne_void _ _ _ e0, atOne_void _ _ _ e1, atOne_void _ _ _ e2, c1, c2]

/-- C80: the new loader reads an instance file by name, too. -/
theorem C80_inst_by_name (env : MatEnv) (path : Str) (f : MFile) (c : InstMat) (hf : env.files path = some f)
    (hr : env.newReader = true) (names : List Str) (x : Nat → MVal) (hv : HasVar f "GTinst".toList (.struct names x))
    (vb vs vc : MVal) (hb : HasField names x "Boundaries".toList vb) (hs : HasField names x "Segmentation".toList vs)
    (hc : HasField names x "Categories".toList vc) (ha : IsAnnotation vb vs vc c.bdry c.seg c.cats)
    (hn : c.bdry.n ≠ 1) (hh : 2 ≤ c.bdry.h) (hw : 2 ≤ c.bdry.w) :
    ∃ r, loadInst env path true = .ok r ∧ Returns r c.bdry c.seg c.cats := by
  obtain ⟨cats, r, c1, c2, c3⟩ := new_ok ha hn hh hw
  refine ⟨r, ?_, c3⟩
  rw [loadInst, if_pos rfl, instNew, (loadVar_ok hf hv).2 hr, pymatOf]
  simp only [bind, Except.bind, keyOf, if_pos hb.1, if_pos hs.1, if_pos hc.1, hb.2, hs.2, hc.2, c1, c2]

/-- C80: the same for an instance file. -/
theorem C80_inst (env : MatEnv) (path : Str) (f : MFile) (c : InstMat) (hf : env.files path = some f)
    (h : IsInstFile f c) :
    (∃ r, loadInst env path false = .ok r ∧ Returns r c.bdry c.seg c.cats) ∧
    (env.newReader = true → 2 ≤ c.bdry.n → 2 ≤ c.bdry.h → 2 ≤ c.bdry.w →
      ∃ r, loadInst env path true = .ok r ∧ Returns r c.bdry c.seg c.cats) := by
  obtain ⟨x, hv, ha⟩ := h
  refine ⟨C80_inst_by_position env path f c hf _ (by decide) x hv ha, fun hr hn hh hw => ?_⟩
  exact C80_inst_by_name env path f c hf hr _ x hv _ _ _ ⟨by decide, rfl⟩ ⟨by decide, rfl⟩ ⟨by decide, rfl⟩ ha (by omega) hh hw

/-! ## Where the loaders fail or differ -/

/-- C80: the new loader cannot read a file with one class: `TypeError` (the boundary is then a sparse matrix, not a list). -/
theorem C80_one_class (env : MatEnv) (path : Str) (f : MFile) (c : ClsMat) (hf : env.files path = some f)
    (hr : env.newReader = true) (h : IsClsFile f c) (hn : c.bdry.n = 1) (hh : 2 ≤ c.bdry.h) (hw : 2 ≤ c.bdry.w) :
    loadCls env path true = .error .typeError := by
  obtain ⟨x, hv, ha⟩ := h
  obtain ⟨g, c1, c2⟩ := catsNew_vec ha.cats
  obtain ⟨fs, e1, hs⟩ := ha.seg
  obtain ⟨fb, e2, hb⟩ := ha.bdry
  obtain ⟨m, m1, -⟩ := hb 0 (by omega)
  have hseg : pymatOf (x 1) = .num [c.seg.rows, c.seg.cols] fun ix => fs (ix.getD 0 0) (ix.getD 1 0) := by
    have h1 := ha.rows
    have h2 := ha.cols
    rw [e1, pymatOf, if_neg (Nat.mul_ne_zero (by omega) (by omega)), if_neg (by omega), if_neg (by omega), if_neg (by omega)]
  have hcell : pymatOf (x 0) = .csc m := by
    rw [e2, hn, pymatOf, if_neg (by decide), if_pos ⟨rfl, rfl⟩, m1, pymatOf]
  have k1 : ["Boundaries".toList, "Segmentation".toList, "CategoriesPresent".toList].idxOf "Boundaries".toList = 0 := by decide
  have k2 : ["Boundaries".toList, "Segmentation".toList, "CategoriesPresent".toList].idxOf "Segmentation".toList = 1 := by decide
  have k3 : ["Boundaries".toList, "Segmentation".toList, "CategoriesPresent".toList].idxOf "CategoriesPresent".toList = 2 := by decide
  have kl : ["Boundaries".toList, "Segmentation".toList, "CategoriesPresent".toList].length = 3 := rfl
  rw [loadCls, if_pos rfl, clsNew, (loadVar_ok hf hv).2 hr, pymatOf]
  simp only [bind, Except.bind, keyOf, k1, k2, k3, kl, if_pos (show 0 < 3 by decide), if_pos (show 1 < 3 by decide),
    if_pos (show 2 < 3 by decide), c1, hcell, hseg, stackOf, segSize, shapeOf, lenOf, assert]
  rfl

/-- C80: the new loader cannot read a picture of one row or one column: `AssertionError`, or `AttributeError` for a single
pixel. -/
theorem C80_thin_picture (env : MatEnv) (path : Str) (f : MFile) (c : ClsMat) (hf : env.files path = some f)
    (hr : env.newReader = true) (h : IsClsFile f c) :
    (c.bdry.h = 1 → c.bdry.w = 1 → loadCls env path true = .error .attributeError) ∧
    (c.bdry.h = 1 ∧ c.bdry.w ≠ 1 ∨ c.bdry.h ≠ 1 ∧ c.bdry.w = 1 → loadCls env path true = .error .assertionError) := by
  obtain ⟨x, hv, ha⟩ := h
  obtain ⟨g, c1, c2⟩ := catsNew_vec ha.cats
  obtain ⟨fs, e1, hs⟩ := ha.seg
  have h1 := ha.rows
  have h2 := ha.cols
  have k1 : ["Boundaries".toList, "Segmentation".toList, "CategoriesPresent".toList].idxOf "Boundaries".toList = 0 := by decide
  have k2 : ["Boundaries".toList, "Segmentation".toList, "CategoriesPresent".toList].idxOf "Segmentation".toList = 1 := by decide
  have k3 : ["Boundaries".toList, "Segmentation".toList, "CategoriesPresent".toList].idxOf "CategoriesPresent".toList = 2 := by decide
  have kl : ["Boundaries".toList, "Segmentation".toList, "CategoriesPresent".toList].length = 3 := rfl
  have key : ∀ e, segSize (pymatOf (x 1)) = .error e → loadCls env path true = .error e := by
    intro e he
    rw [loadCls, if_pos rfl, clsNew, (loadVar_ok hf hv).2 hr, pymatOf]
    simp only [bind, Except.bind, keyOf, k1, k2, k3, kl, if_pos (show 0 < 3 by decide), if_pos (show 1 < 3 by decide),
      if_pos (show 2 < 3 by decide), c1, he, stackOf]
  constructor
  · intro hh hw
    apply key
    rw [e1, pymatOf, if_neg (Nat.mul_ne_zero (by omega) (by omega)), if_pos (by omega)]
    rfl
  · intro hh
    apply key
    rw [e1, pymatOf]
    split
    · rfl
    · rw [if_neg (by omega)]
      split
      · rfl
      · rw [if_pos (by omega)]
        rfl

/-- A row cell of sparse matrices instead of a column cell. -/
def IsRowStack (v : MVal) (b : MLEdges) : Prop :=
  ∃ g, v = .cell 1 b.n g ∧ ∀ k < b.n, ∃ m, g 0 k = .sparse m ∧ m.rows = b.h ∧ m.cols = b.w ∧
    ∀ i < b.h, ∀ j < b.w, stored m i j = if b.at_ k i j then 1 else 0

/-- C80: when the boundaries of `n ≥ 2` classes are a row cell instead of a column cell, the old loader silently returns
the first class only, while the new one returns all. -/
theorem C80_row_cell (env : MatEnv) (path : Str) (f : MFile) (c : ClsMat) (hf : env.files path = some f)
    (x : Nat → MVal)
    (hv : HasVar f "GTcls".toList (.struct ["Boundaries".toList, "Segmentation".toList, "CategoriesPresent".toList] x))
    (hb : IsRowStack (x 0) c.bdry) (hs : IsMatrix (x 1) c.seg) (hc : IsVector (x 2) c.present)
    (hrows : c.seg.rows = c.bdry.h) (hcols : c.seg.cols = c.bdry.w) (hn : 2 ≤ c.bdry.n) :
    (∃ r, loadCls env path false = .ok r ∧ Returns r { c.bdry with n := 1 } c.seg c.present) ∧
    (env.newReader = true → 2 ≤ c.bdry.h → 2 ≤ c.bdry.w →
      ∃ r, loadCls env path true = .ok r ∧ Returns r c.bdry c.seg c.present) := by
  obtain ⟨gb, eb, hb⟩ := hb
  obtain ⟨fs, es, hs'⟩ := hs
  have k1 : ["Boundaries".toList, "Segmentation".toList, "CategoriesPresent".toList].idxOf "Boundaries".toList = 0 := by decide
  have k2 : ["Boundaries".toList, "Segmentation".toList, "CategoriesPresent".toList].idxOf "Segmentation".toList = 1 := by decide
  have k3 : ["Boundaries".toList, "Segmentation".toList, "CategoriesPresent".toList].idxOf "CategoriesPresent".toList = 2 := by decide
  have kl : ["Boundaries".toList, "Segmentation".toList, "CategoriesPresent".toList].length = 3 := rfl
  constructor
  · obtain ⟨g, c1, c2⟩ := catsOld_vec hc
    obtain ⟨r, r1, r2, r3, r4, r5, r6, r7⟩ := stackOf_ok (scipyOf (x 1)) (.num [c.present.length] g)
      (scipyOf (x 0)) (fun x => atOne x 0) { c.bdry with n := 1 }
      (by rw [es]; simp [scipyOf, segSize, shapeOf, assert, bind, Except.bind, hrows, hcols])
      (by rw [eb]; rfl)
      (fun k hk => by
        have hk : k < 1 := hk
        obtain rfl : k = 0 := by omega
        obtain ⟨m, m1, m2⟩ := hb 0 (by omega)
        refine ⟨m, ?_, m2⟩
        have : (0 : Nat) < c.bdry.n := by omega
        rw [eb]
        simp [scipyOf, atOne, this, m1, bind, Except.bind])
    refine ⟨r, ?_, ⟨r2, r3, r4⟩, r7, ⟨fun ix => fs (ix.getD 0 0) (ix.getD 1 0), by rw [r5, es, scipyOf], hs'⟩, ⟨g, r6, c2⟩⟩
    rw [loadCls, if_neg (by decide), clsOld, (loadVar_ok hf hv).1, scipyOf]
    have a0 := atOne_void ["Boundaries".toList, "Segmentation".toList, "CategoriesPresent".toList] (fun k => scipyOf (x k)) 0 (by decide)
    have a1 := atOne_void ["Boundaries".toList, "Segmentation".toList, "CategoriesPresent".toList] (fun k => scipyOf (x k)) 1 (by decide)
    have a2 := atOne_void ["Boundaries".toList, "Segmentation".toList, "CategoriesPresent".toList] (fun k => scipyOf (x k)) 2 (by decide)
    simp only [bind, Except.bind, atPair_recs, a0, a1, a2, c1, r1]
  · intro hr hh hw
    obtain ⟨g, c1, c2⟩ := catsNew_vec hc
    have hseg : pymatOf (x 1) = .num [c.seg.rows, c.seg.cols] fun ix => fs (ix.getD 0 0) (ix.getD 1 0) := by
      rw [es, pymatOf, if_neg (Nat.mul_ne_zero (by omega) (by omega)), if_neg (by omega), if_neg (by omega), if_neg (by omega)]
    have hcell : pymatOf (x 0) = .list c.bdry.n fun k => pymatOf (gb 0 k) := by
      rw [eb, pymatOf, if_neg (by omega), if_neg (by omega), if_pos rfl]
    obtain ⟨r, r1, r2, r3, r4, r5, r6, r7⟩ := stackOf_ok (pymatOf (x 1)) (.num [c.present.length] g)
      (pymatOf (x 0)) (fun x => .ok x) c.bdry
      (by rw [hseg]; simp [segSize, shapeOf, assert, bind, Except.bind, hrows, hcols])
      (by rw [hcell]; rfl)
      (fun k hk => by
        obtain ⟨m, m1, m2⟩ := hb k hk
        refine ⟨m, ?_, m2⟩
        rw [hcell]
        simp [atOne, hk, m1, pymatOf, bind, Except.bind])
    refine ⟨r, ?_, ⟨r2, r3, r4⟩, r7, ⟨fun ix => fs (ix.getD 0 0) (ix.getD 1 0), by rw [r5, hseg], hs'⟩, ⟨g, r6, c2⟩⟩
    rw [loadCls, if_pos rfl, clsNew, (loadVar_ok hf hv).2 hr, pymatOf]
    simp only [bind, Except.bind, keyOf, k1, k2, k3, kl, if_pos (show 0 < 3 by decide), if_pos (show 1 < 3 by decide),
      if_pos (show 2 < 3 by decide), c1, r1]

/-- C80: a missing file, or the new loader when no package for it is installed: `AssertionError`. A file without the
variable: `KeyError`. -/
theorem C80_no_file (env : MatEnv) (path : Str) (newLoader : Bool) :
    (env.files path = none ∨ (newLoader = true ∧ env.newReader = false) →
      loadCls env path newLoader = .error .assertionError ∧ loadInst env path newLoader = .error .assertionError ∧
      reannoNames env path newLoader = .error .assertionError) ∧
    (∀ f, env.files path = some f → (newLoader = true → env.newReader = true) →
      ("GTcls".toList ∉ f.names → loadCls env path newLoader = .error .keyError) ∧
      ("GTinst".toList ∉ f.names → loadInst env path newLoader = .error .keyError) ∧
      ("listTest".toList ∉ f.names → reannoNames env path newLoader = .error .keyError)) := by
  have bnd : ∀ {α β : Type} (x : Except PyErr α) (g : α → Except PyErr β) (e : PyErr), x = .error e → (x >>= g) = .error e := by
    intro α β x g e h
    rw [h]
    rfl
  constructor
  · intro h
    have hl : ∀ name, loadVar env path newLoader name = .error .assertionError := by
      intro name
      unfold loadVar
      rcases h with h | ⟨h1, h2⟩
      · rw [h]
      · cases env.files path with
        | none => rfl
        | some f => simp [h1, h2]
    cases newLoader <;> exact ⟨bnd _ _ _ (hl _), bnd _ _ _ (hl _), bnd _ _ _ (hl _)⟩
  · intro f hf hr
    have hl : ∀ name, name ∉ f.names → loadVar env path newLoader name = .error .keyError := by
      intro name hn
      unfold loadVar
      rw [hf]
      have h1 : (newLoader && !env.newReader) = false := by
        cases newLoader with
        | false => rfl
        | true => rw [hr rfl]; rfl
      have h2 : ¬ f.names.idxOf name < f.names.length := by rw [List.idxOf_lt_length_iff]; exact hn
      simp only [h1, Bool.false_eq_true, if_false, h2]
    cases newLoader <;> exact ⟨fun h => bnd _ _ _ (hl _ h), fun h => bnd _ _ _ (hl _ h), fun h => bnd _ _ _ (hl _ h)⟩

/-! ## The list of sample names -/

/-- C80: the names in a `test.mat` are read back by both loaders when there are at least two (or none); with exactly one the
old loader raises `TypeError` and the new one `AssertionError`. -/
theorem C80_names (env : MatEnv) (path : Str) (f : MFile) (v : MVal) (l : List Str) (hf : env.files path = some f)
    (hv : HasVar f "listTest".toList v) (h : IsNames v l) :
    (l.length ≠ 1 → reannoNames env path false = .ok (l.map .str) ∧
      (env.newReader = true → reannoNames env path true = .ok (l.map .str))) ∧
    (l.length = 1 → reannoNames env path false = .error .typeError ∧
      (env.newReader = true → reannoNames env path true = .error .assertionError)) := by
  obtain ⟨g, rfl, hg⟩ := h
  have hmap : ∀ (F : Nat → PyVal), (∀ k < l.length, F k = .str (l.getD k [])) →
      (List.range l.length).map F = l.map .str := by
    intro F hF
    apply List.ext_getElem
    · simp
    · intro k h1 h2
      have hk : k < l.length := by simpa using h1
      simp [hF k hk, hk]
  constructor
  · intro hne
    constructor
    · rw [reannoNames, if_neg (by decide), (loadVar_ok hf hv).1, scipyOf]
      have hsq : squeezeOf (.obj [l.length, 1] fun ix => scipyOf (g (ix.getD 0 0) (ix.getD 1 0))) =
          .ok (.obj [l.length] fun ix => scipyOf (g (ix.headD 0) 0)) := by
        simp [squeezeOf, hne, unsqueeze]
      have hit : (List.range l.length).mapM (fun i => firstName (scipyOf (g i 0))) =
          .ok ((List.range l.length).map fun i => l.getD i []) := by
        apply mapM_range_ok
        intro k hk
        rw [hg k hk]
        rfl
      have hit' : ((List.range l.length).map fun i => scipyOf (g i 0)).mapM firstName =
          .ok ((List.range l.length).map fun i => l.getD i []) := by
        rw [List.mapM_map]
        exact hit
      simp only [bind, Except.bind, hsq, iterOf, List.headD_cons, hit', List.map_map]
      rw [hmap (PyVal.str ∘ fun i => l.getD i []) fun k hk => rfl]
    · intro hr
      rw [reannoNames, if_pos rfl, (loadVar_ok hf hv).2 hr, pymatOf]
      by_cases h0 : l.length = 0
      · rw [if_pos (by omega)]
        simp only [bind, Except.bind, List.range_zero, List.map_nil]
        rw [List.eq_nil_of_length_eq_zero h0]
        rfl
      · rw [if_neg (by omega), if_neg (by omega), if_neg hne, if_pos rfl]
        simp only [bind, Except.bind]
        rw [hmap _ fun k hk => ?_]
        rw [hg k hk]
        rfl
  · intro h1
    constructor
    · rw [reannoNames, if_neg (by decide), (loadVar_ok hf hv).1, scipyOf, h1]
      rfl
    · intro hr
      rw [reannoNames, if_pos rfl, (loadVar_ok hf hv).2 hr, h1, pymatOf, if_neg (by decide), if_pos ⟨rfl, rfl⟩,
        hg 0 (by omega)]
      rfl

/-! ## BSDS -/

/-- The value is this picture, as a two-dimensional array. -/
def IsArray (v : PyVal) (s : Img Nat) : Prop :=
  ∃ g, v = .num [s.rows, s.cols] g ∧ ∀ i < s.rows, ∀ j < s.cols, g [i, j] = s.at_ i j

/-- C80: the annotations of a BSDS file are read back in order by the old loader; by the new one when there are at least
two and no picture is a single row or column. -/
theorem C80_bsds (env : MatEnv) (path : Str) (f : MFile) (v : MVal) (l : List (Img Nat)) (hf : env.files path = some f)
    (hv : HasVar f "groundTruth".toList v) (h : IsBsds v l) :
    (∃ r, bsdsBoundaries env path false = .ok r ∧ List.Forall₂ IsArray r l) ∧
    (env.newReader = true → 2 ≤ l.length → (∀ s ∈ l, 2 ≤ s.rows ∧ 2 ≤ s.cols) →
      ∃ r, bsdsBoundaries env path true = .ok r ∧ List.Forall₂ IsArray r l) := by
  obtain ⟨g, rfl, hg⟩ := h
  have all2 : ∀ (P : Nat → PyVal), (∀ k < l.length, IsArray (P k) (l.getD k ⟨0, 0, fun _ _ => 0⟩)) →
      List.Forall₂ IsArray ((List.range l.length).map P) l := by
    intro P hP
    rw [List.forall₂_iff_get]
    refine ⟨by simp, fun k h1 h2 => ?_⟩
    have := hP k h2
    simpa [List.getD, h2] using this
  constructor
  · have hp : ∀ k, ∃ p, k < l.length → ((do
        let x ← atPair (scipyOf (.cell 1 l.length g)) k
        let y ← keyOf x "Boundaries".toList
        atPair y 0) : Except PyErr PyVal) = .ok p ∧ IsArray p (l.getD k ⟨0, 0, fun _ _ => 0⟩) := by
      intro k
      by_cases hk : k < l.length
      · obtain ⟨names, x, vb, e1, hfld, fs, e2, hs⟩ := hg k hk
        refine ⟨scipyOf vb, fun _ => ⟨?_, ⟨fun ix => fs (ix.getD 0 0) (ix.getD 1 0), by rw [e2, scipyOf], hs⟩⟩⟩
        have a : atPair (scipyOf (.cell 1 l.length g)) k = .ok (.recs [1, 1] names fun k => scipyOf (x k)) := by
          rw [scipyOf, atPair, if_pos ⟨by decide, hk⟩]
          show Except.ok (scipyOf (g 0 k)) = _
          rw [e1, scipyOf]
        rw [a]
        show (do let y ← keyOf (.recs [1, 1] names fun k => scipyOf (x k)) "Boundaries".toList; atPair y 0) = _
        rw [keyOf, if_pos hfld.1, hfld.2]
        rfl
      · exact ⟨.int 0, fun h => absurd h hk⟩
    choose p hp using hp
    refine ⟨_, ?_, all2 p fun k hk => (hp k hk).2⟩
    rw [bsdsBoundaries, if_neg (by decide), (loadVar_ok hf hv).1]
    have hm := mapM_range_ok l.length _ p fun k hk => (hp k hk).1
    show (do
      let s ← shapeOf (scipyOf (.cell 1 l.length g))
      let n ← getItem s 1
      (List.range n).mapM fun i => do
        let x ← atPair (scipyOf (.cell 1 l.length g)) i
        let y ← keyOf x "Boundaries".toList
        atPair y 0) = _
    rw [← hm]
    rfl
  · intro hr h2 hsz
    have hcell : pymatOf (.cell 1 l.length g) = .list l.length fun k => pymatOf (g 0 k) := by
      rw [pymatOf, if_neg (by omega), if_neg (by omega), if_pos rfl]
    have hp : ∀ k, ∃ p, k < l.length → ((do
        let x ← atOne (.list l.length fun k => pymatOf (g 0 k)) k
        keyOf x "Boundaries".toList) : Except PyErr PyVal) = .ok p ∧ IsArray p (l.getD k ⟨0, 0, fun _ _ => 0⟩) := by
      intro k
      by_cases hk : k < l.length
      · obtain ⟨names, x, vb, e1, hfld, fs, e2, hs⟩ := hg k hk
        have hsz' := hsz (l.getD k ⟨0, 0, fun _ _ => 0⟩) (by simp [List.getD, hk])
        refine ⟨pymatOf vb, fun _ => ⟨?_, ⟨fun ix => fs (ix.getD 0 0) (ix.getD 1 0), ?_, hs⟩⟩⟩
        · rw [atOne, if_pos hk, e1, pymatOf]
          show keyOf (.dict names fun k => pymatOf (x k)) "Boundaries".toList = _
          rw [keyOf, if_pos hfld.1, hfld.2]
        · rw [e2, pymatOf, if_neg (Nat.mul_ne_zero (by omega) (by omega)), if_neg (by omega), if_neg (by omega),
            if_neg (by omega)]
      · exact ⟨.int 0, fun h => absurd h hk⟩
    choose p hp using hp
    refine ⟨_, ?_, all2 p fun k hk => (hp k hk).2⟩
    have hm := mapM_range_ok l.length _ p fun k hk => (hp k hk).1
    rw [bsdsBoundaries, if_pos rfl, hf]
    show (do
      let gt ← loadVar env path true "groundTruth".toList
      let n ← lenOf gt
      (List.range n).mapM fun i => do
        let x ← atOne gt i
        keyOf x "Boundaries".toList) = _
    rw [(loadVar_ok hf hv).2 hr, hcell, ← hm]
    rfl

/-- C80: a BSDS file with one annotation cannot be read with the new loader: `KeyError`. -/
theorem C80_bsds_one (env : MatEnv) (path : Str) (f : MFile) (v : MVal) (l : List (Img Nat)) (hf : env.files path = some f)
    (hr : env.newReader = true) (hv : HasVar f "groundTruth".toList v) (h : IsBsds v l) (h1 : l.length = 1) :
    bsdsBoundaries env path true = .error .keyError := by
  obtain ⟨g, rfl, hg⟩ := h
  obtain ⟨names, x, vb, e1, hfld, -⟩ := hg 0 (by omega)
  have hcell : pymatOf (.cell 1 l.length g) = .dict names fun k => pymatOf (x k) := by
    rw [h1, pymatOf, if_neg (by decide), if_pos ⟨rfl, rfl⟩, e1, pymatOf]
  rw [bsdsBoundaries, if_pos rfl, hf]
  show (do
    let gt ← loadVar env path true "groundTruth".toList
    let n ← lenOf gt
    (List.range n).mapM fun i => do
      let x ← atOne gt i
      keyOf x "Boundaries".toList) = _
  rw [(loadVar_ok hf hv).2 hr, hcell]
  obtain ⟨n, hn⟩ : ∃ n, names.length = n + 1 := ⟨names.length - 1, by have := hfld.1; omega⟩
  show (List.range names.length).mapM _ = _
  rw [hn, List.range_succ_eq_map, List.mapM_cons]
  rfl

/-! ## Boundaries of another size -/

/-- C80: a class whose boundary has another size than the segmentation is refused (`ValueError`), unless it has one row or
one column where the segmentation has more: then that row or column is repeated. -/
theorem C80_plane (h w : Nat) (m : Csc) :
    ((m.rows = h ∨ m.rows = 1) ∧ (m.cols = w ∨ m.cols = 1) →
      ∃ p, (do let d ← sparse2numpy (.csc m); assignPlane h w d) = .ok p ∧
        ∀ i < h, ∀ j < w, (p i j : Int) =
          stored m (if m.rows = h then i else 0) (if m.cols = w then j else 0) % 256) ∧
    (¬ ((m.rows = h ∨ m.rows = 1) ∧ (m.cols = w ∨ m.cols = 1)) →
      (do let d ← sparse2numpy (.csc m); assignPlane h w d) = .error .valueError) := by
  obtain ⟨d, e, d1, d2, d3⟩ := C80_dense m
  rw [e]
  show (_ → ∃ p, assignPlane h w d = .ok p ∧ _) ∧ (_ → assignPlane h w d = _)
  unfold assignPlane
  rw [d1, d2]
  constructor
  · intro hc
    rw [if_pos hc]
    refine ⟨_, rfl, fun i hi j hj => ?_⟩
    have hi' : (if m.rows = 1 then 0 else i) = if m.rows = h then i else 0 := by
      rcases hc.1 with g | g <;> split_ifs <;> omega
    have hj' : (if m.cols = 1 then 0 else j) = if m.cols = w then j else 0 := by
      rcases hc.2 with g | g <;> split_ifs <;> omega
    have hlt : (if m.cols = w then j else 0) < m.cols := by
      rcases hc.2 with g | g <;> split_ifs <;> omega
    show ((d.at_ (if m.rows = 1 then 0 else i) (if m.cols = 1 then 0 else j) % 256).toNat : Int) = _
    rw [hi', hj', d3 _ _ hlt]
    exact Int.toNat_of_nonneg (Int.emod_nonneg _ (by decide))
  · intro hc
    rw [if_neg hc]

/-! ## What the conversion works with -/

/-- C80: what the conversion (C54, C60, C70) starts from is the annotation in the file: same sizes, same boundary pixels, same
labels, same categories in the same order. -/
theorem C80_conversion_input (r : Loaded) (b : MLEdges) (s : Img Nat) (l : List Nat) (h : Returns r b s l) :
    ((asBdry r).n = b.n ∧ (asBdry r).h = b.h ∧ (asBdry r).w = b.w ∧
      ∀ k < b.n, ∀ i < b.h, ∀ j < b.w, (asBdry r).at_ k i j = b.at_ k i j) ∧
    ((asSeg r).rows = s.rows ∧ (asSeg r).cols = s.cols ∧ ∀ i < s.rows, ∀ j < s.cols, (asSeg r).at_ i j = s.at_ i j) ∧
    asCats r = l := by
  refine ⟨⟨h.size.1, h.size.2.1, h.size.2.2, fun k hk i hi j hj => ?_⟩, ?_, ?_⟩
  · show (r.bdry k i j != 0) = _
    rw [h.bdry k hk i hi j hj]
    cases b.at_ k i j <;> rfl
  · obtain ⟨g, e, hg⟩ := h.seg
    unfold asSeg
    rw [e]
    refine ⟨rfl, rfl, fun i hi j hj => ?_⟩
    show (g [i, j]).toNat = _
    rw [hg i hi j hj]
    rfl
  · obtain ⟨g, e, hg⟩ := h.cats
    unfold asCats
    rw [e]
    apply List.ext_getElem
    · simp
    · intro k h1 h2
      simp [hg k h2, h2]

/-! ## Concrete cases -/

/-- Two classes on a 2×3 picture. -/
def exCls : ClsMat where
  bdry := ⟨2, 2, 3, fun k i j => k == 0 && i == 1 && j == 0 || k == 1 && i == 0 && j == 2⟩
  seg := ⟨2, 3, fun i j => if j = 0 then 1 else if i = 0 ∧ j = 2 then 2 else 0⟩
  present := [1, 2]

/-- A file with it; the first class has an explicit zero stored. -/
def exClsFile : MFile where
  names := ["__header__".toList, "GTcls".toList]
  vals _ := .struct ["Boundaries".toList, "Segmentation".toList, "CategoriesPresent".toList] fun k =>
    if k = 0 then .cell 2 1 fun k _ => .sparse (if k = 0 then ⟨2, 3, [1, 0], [1, 0], [0, 1, 2, 2]⟩ else ⟨2, 3, [1], [0], [0, 0, 0, 1]⟩)
    else if k = 1 then .num 2 3 fun i j => if j = 0 then 1 else if i = 0 ∧ j = 2 then 2 else 0
    else .num 2 1 fun i _ => (i : Int) + 1

theorem exClsFile_ok : IsClsFile exClsFile exCls := by
  refine ⟨_, ⟨by decide, rfl⟩, ⟨_, rfl, ?_⟩, ⟨_, rfl, by decide⟩, Or.inr ⟨_, rfl, by decide⟩, rfl, rfl⟩
  intro k hk
  have hk : k < 2 := hk
  match k, hk with
  | 0, _ => exact ⟨_, rfl, rfl, rfl, by decide⟩
  | 1, _ => exact ⟨_, rfl, rfl, rfl, by decide⟩

def exMatEnv : MatEnv := ⟨fun p => if p = ['c'] then some exClsFile else none, true⟩

example : (∃ r, loadCls exMatEnv ['c'] false = .ok r ∧ Returns r exCls.bdry exCls.seg exCls.present) ∧
    (∃ r, loadCls exMatEnv ['c'] true = .ok r ∧ Returns r exCls.bdry exCls.seg exCls.present) :=
  have h := C80_cls exMatEnv ['c'] exClsFile exCls rfl exClsFile_ok
  ⟨h.1, h.2 rfl (by decide) (by decide) (by decide)⟩

/-- The result is not trivial. -/
example : exCls.bdry.at_ 0 1 0 = true ∧ exCls.bdry.at_ 1 1 0 = false ∧ exCls.seg.at_ 0 2 = 2 := by decide

example : loadCls exMatEnv ['d'] true = .error .assertionError := (C80_no_file exMatEnv ['d'] true).1 (Or.inl rfl) |>.1

example : loadInst exMatEnv ['c'] false = .error .keyError :=
  ((C80_no_file exMatEnv ['c'] false).2 exClsFile rfl (fun h => nomatch h)).2.1 (by decide)

/-- One class: the old loader reads it, the new one does not. -/
def exOne : ClsMat := ⟨⟨1, 2, 2, fun _ i j => i == j⟩, ⟨2, 2, fun _ _ => 1⟩, [1]⟩

def exOneFile : MFile where
  names := ["GTcls".toList]
  vals _ := .struct ["Boundaries".toList, "Segmentation".toList, "CategoriesPresent".toList] fun k =>
    if k = 0 then .cell 1 1 fun _ _ => .sparse ⟨2, 2, [1, 1], [0, 1], [0, 1, 2]⟩
    else if k = 1 then .num 2 2 fun _ _ => 1 else .num 1 1 fun _ _ => 1

theorem exOneFile_ok : IsClsFile exOneFile exOne := by
  refine ⟨_, ⟨by decide, rfl⟩, ⟨_, rfl, ?_⟩, ⟨_, rfl, by decide⟩, Or.inr ⟨_, rfl, by decide⟩, rfl, rfl⟩
  intro k hk
  have hk : k < 1 := hk
  obtain rfl : k = 0 := by omega
  exact ⟨_, rfl, rfl, rfl, by decide⟩

example : loadCls ⟨fun _ => some exOneFile, true⟩ [] true = .error .typeError ∧
    ∃ r, loadCls ⟨fun _ => some exOneFile, true⟩ [] false = .ok r ∧ Returns r exOne.bdry exOne.seg exOne.present :=
  ⟨C80_one_class _ _ _ _ rfl rfl exOneFile_ok rfl (by decide) (by decide), (C80_cls _ _ _ _ rfl exOneFile_ok).1⟩

/-- A picture of one row. -/
def exRow : ClsMat := ⟨⟨0, 1, 3, fun _ _ _ => false⟩, ⟨1, 3, fun _ j => j⟩, []⟩

def exRowFile : MFile where
  names := ["GTcls".toList]
  vals _ := .struct ["Boundaries".toList, "Segmentation".toList, "CategoriesPresent".toList] fun k =>
    if k = 0 then .cell 0 1 fun _ _ => .char [] else if k = 1 then .num 1 3 fun _ j => j else .num 1 0 fun _ _ => 0

theorem exRowFile_ok : IsClsFile exRowFile exRow :=
  ⟨_, ⟨by decide, rfl⟩, ⟨_, rfl, fun _ hk => absurd hk (by show ¬ _ < 0; omega)⟩, ⟨_, rfl, by decide⟩, Or.inl ⟨_, rfl, by decide⟩, rfl, rfl⟩

example : loadCls ⟨fun _ => some exRowFile, true⟩ [] true = .error .assertionError :=
  (C80_thin_picture _ _ _ _ rfl rfl exRowFile_ok).2 (Or.inl ⟨rfl, by decide⟩)

/-- The same two classes in a row cell. -/
def exRowCell : MFile where
  names := ["GTcls".toList]
  vals _ := .struct ["Boundaries".toList, "Segmentation".toList, "CategoriesPresent".toList] fun k =>
    if k = 0 then .cell 1 2 fun _ k => .sparse (if k = 0 then ⟨2, 3, [1, 0], [1, 0], [0, 1, 2, 2]⟩ else ⟨2, 3, [1], [0], [0, 0, 0, 1]⟩)
    else if k = 1 then .num 2 3 fun i j => if j = 0 then 1 else if i = 0 ∧ j = 2 then 2 else 0
    else .num 2 1 fun i _ => (i : Int) + 1

example : (∃ r, loadCls ⟨fun _ => some exRowCell, true⟩ [] false = .ok r ∧ r.n = 1) ∧
    (∃ r, loadCls ⟨fun _ => some exRowCell, true⟩ [] true = .ok r ∧ r.n = 2) := by
  have h := C80_row_cell ⟨fun _ => some exRowCell, true⟩ [] exRowCell exCls rfl _ ⟨by decide, rfl⟩
    ⟨_, rfl, by
      intro k hk
      have hk : k < 2 := hk
      match k, hk with
      | 0, _ => exact ⟨_, rfl, rfl, rfl, by decide⟩
      | 1, _ => exact ⟨_, rfl, rfl, rfl, by decide⟩⟩
    ⟨_, rfl, by decide⟩ (Or.inr ⟨_, rfl, by decide⟩) rfl rfl (by decide)
  obtain ⟨⟨r, a1, a2⟩, h2⟩ := h
  obtain ⟨r', b1, b2⟩ := h2 rfl (by decide) (by decide)
  exact ⟨⟨r, a1, a2.size.1⟩, ⟨r', b1, b2.size.1⟩⟩

/-- An instance file with one instance. -/
def exInst : InstMat := ⟨⟨2, 2, 2, fun k i j => k == 0 && i == j⟩, ⟨2, 2, fun i _ => i⟩, [7]⟩

def exInstFile : MFile where
  names := ["GTinst".toList]
  vals _ := .struct ["Segmentation".toList, "Boundaries".toList, "Categories".toList] fun k =>
    if k = 0 then .num 2 2 fun i _ => i
    else if k = 1 then .cell 2 1 fun k _ => .sparse (if k = 0 then ⟨2, 2, [1, 1], [0, 1], [0, 1, 2]⟩ else ⟨2, 2, [], [], [0, 0, 0]⟩)
    else .num 1 1 fun _ _ => 7

theorem exInstFile_ok : IsInstFile exInstFile exInst := by
  refine ⟨_, ⟨by decide, rfl⟩, ⟨_, rfl, ?_⟩, ⟨_, rfl, by decide⟩, Or.inl ⟨_, rfl, by decide⟩, rfl, rfl⟩
  intro k hk
  have hk : k < 2 := hk
  match k, hk with
  | 0, _ => exact ⟨_, rfl, rfl, rfl, by decide⟩
  | 1, _ => exact ⟨_, rfl, rfl, rfl, by decide⟩

example : ∃ r, loadInst ⟨fun _ => some exInstFile, true⟩ [] true = .ok r ∧ asCats r = [7] := by
  obtain ⟨r, h1, h2⟩ := (C80_inst ⟨fun _ => some exInstFile, true⟩ [] exInstFile exInst rfl exInstFile_ok).2 rfl (by decide)
    (by decide) (by decide)
  exact ⟨r, h1, (C80_conversion_input r _ _ _ h2).2.2⟩

/-- Two names and one name. -/
def exNamesFile (l : List Str) : MFile := ⟨["listTest".toList], fun _ => .cell l.length 1 fun k _ => .char [l.getD k []]⟩

example : reannoNames ⟨fun _ => some (exNamesFile ["2008_000002".toList, "2008_000003".toList]), true⟩ [] false =
      .ok [.str "2008_000002".toList, .str "2008_000003".toList] ∧
    reannoNames ⟨fun _ => some (exNamesFile ["2008_000002".toList]), true⟩ [] false = .error .typeError :=
  ⟨((C80_names _ [] (exNamesFile ["2008_000002".toList, "2008_000003".toList]) _ ["2008_000002".toList, "2008_000003".toList] rfl
      ⟨by decide, rfl⟩ ⟨_, rfl, fun _ _ => rfl⟩).1 (by decide)).1,
   ((C80_names _ [] (exNamesFile ["2008_000002".toList]) _ ["2008_000002".toList] rfl
      ⟨by decide, rfl⟩ ⟨_, rfl, fun _ _ => rfl⟩).2 (by decide)).1⟩

/-- Two annotators, and one. -/
def exBsdsFile (n : Nat) : MFile where
  names := ["groundTruth".toList]
  vals _ := .cell 1 n fun _ k => .struct ["Segmentation".toList, "Boundaries".toList] fun _ => .num 2 2 fun i j => if i + j = k then 1 else 0

def exBsdsImg (k : Nat) : Img Nat := ⟨2, 2, fun i j => if i + j = k then 1 else 0⟩

theorem exBsds_ok (n : Nat) (hn : n = 1 ∨ n = 2) :
    IsBsds ((exBsdsFile n).vals 0) ((List.range n).map exBsdsImg) := by
  rcases hn with rfl | rfl
  · refine ⟨_, rfl, fun k hk => ⟨_, _, _, rfl, ⟨by decide, rfl⟩, ?_⟩⟩
    have hk : k < 1 := hk
    obtain rfl : k = 0 := by omega
    exact ⟨_, rfl, by decide⟩
  · refine ⟨_, rfl, fun k hk => ⟨_, _, _, rfl, ⟨by decide, rfl⟩, ?_⟩⟩
    have hk : k < 2 := hk
    match k, hk with
    | 0, _ => exact ⟨_, rfl, by decide⟩
    | 1, _ => exact ⟨_, rfl, by decide⟩

example : (∃ r, bsdsBoundaries ⟨fun _ => some (exBsdsFile 2), true⟩ [] true = .ok r ∧ List.Forall₂ IsArray r [exBsdsImg 0, exBsdsImg 1]) ∧
    (∃ r, bsdsBoundaries ⟨fun _ => some (exBsdsFile 1), true⟩ [] false = .ok r ∧ List.Forall₂ IsArray r [exBsdsImg 0]) ∧
    bsdsBoundaries ⟨fun _ => some (exBsdsFile 1), true⟩ [] true = .error .keyError :=
  ⟨(C80_bsds _ [] (exBsdsFile 2) _ _ rfl ⟨by decide, rfl⟩ (exBsds_ok 2 (Or.inr rfl))).2 rfl (by decide) (by
      intro s hs
      have hs : s ∈ (List.range 2).map exBsdsImg := hs
      obtain ⟨k, -, rfl⟩ := List.mem_map.1 hs
      exact ⟨le_refl 2, le_refl 2⟩),
   (C80_bsds _ [] (exBsdsFile 1) _ _ rfl ⟨by decide, rfl⟩ (exBsds_ok 1 (Or.inl rfl))).1,
   C80_bsds_one _ [] (exBsdsFile 1) _ _ rfl rfl ⟨by decide, rfl⟩ (exBsds_ok 1 (Or.inl rfl)) rfl⟩

/-- A boundary of one row is repeated; one of three rows is refused. -/
example : (∃ p, (do let d ← sparse2numpy (.csc ⟨1, 2, [1], [0], [0, 1, 1]⟩); assignPlane 2 2 d) = .ok p ∧ (p 1 0 : Int) = 1) ∧
    (do let d ← sparse2numpy (.csc ⟨3, 2, [1], [2], [0, 1, 1]⟩); assignPlane 2 2 d) = .error .valueError := by
  constructor
  · obtain ⟨p, h1, h2⟩ := (C80_plane 2 2 ⟨1, 2, [1], [0], [0, 1, 1]⟩).1 (by decide)
    exact ⟨p, h1, (h2 1 (by decide) 0 (by decide)).trans (by decide)⟩
  · exact (C80_plane 2 2 ⟨3, 2, [1], [2], [0, 1, 1]⟩).2 (by decide)

end EdgeEval.Props
