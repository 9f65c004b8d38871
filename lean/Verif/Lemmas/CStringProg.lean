import Verif.Lemmas.CString
import Verif.Spec.CString

/-!
# Programs with native strings: the simulation
-/

namespace EdgeEval.CString

open Text Spec

/-- The heap and the objects represent the values, every block belongs to one object. -/
structure Inv (s : St) (e : Env) : Prop where
  fresh : Fresh s.mem
  dead : ∀ x, e x = none → s.objs x = none
  live : ∀ x v, e x = some v → ∃ o, s.objs x = some o ∧ Rep s.mem o v ∧ o.size ≤ 2 ^ 30 ∧ v.length ≤ limit
  inj : ∀ x y ox oy, s.objs x = some ox → s.objs y = some oy → ox.ptr = oy.ptr → x = y
  owned : ∀ p b, s.mem.blk p = some b → ∃ x o, s.objs x = some o ∧ o.ptr = p

theorem Inv.empty : Inv St.empty Env.empty :=
  ⟨fun _ _ => rfl, fun _ _ => rfl, fun _ _ (h : none = some _) => (by cases h), fun _ _ _ _ (h : none = some _) => (by cases h),
    fun _ _ (h : none = some _) => (by cases h)⟩

theorem Rep.congr {m m' : Mem} {o : Obj} {v : Str} (h : Rep m o v) (he : m'.blk o.ptr = m.blk o.ptr) : Rep m' o v := by
  obtain ⟨b, hb, r⟩ := h
  exact ⟨b, he.trans hb, r⟩

theorem Inv.some_of {s : St} {e : Env} (h : Inv s e) {x : Nat} {o : Obj} (ho : s.objs x = some o) :
    ∃ v, e x = some v ∧ Rep s.mem o v ∧ o.size ≤ 2 ^ 30 ∧ v.length ≤ limit := by
  cases hx : e x with
  | none => rw [h.dead x hx] at ho; cases ho
  | some v =>
    obtain ⟨o', ho', r⟩ := h.live x v hx
    rw [ho] at ho'
    cases ho'
    exact ⟨v, rfl, r⟩

theorem Inv.put {s : St} {e : Env} (h : Inv s e) {x : Nat} {o o' : Obj} {w : Str} {m' : Mem} (ho : s.objs x = some o)
    (hu : Upd s.mem o m' o') (hr : Rep m' o' w) (hs : o'.size ≤ 2 ^ 30) (hl : w.length ≤ limit) :
    Inv ⟨m', fun y => if y = x then some o' else s.objs y⟩ (e.set x (some w)) := by
  obtain ⟨v, hv, hrep, -, -⟩ := h.some_of ho
  have hlt := hrep.lt h.fresh
  have hsep : ∀ y oy, y ≠ x → s.objs y = some oy → oy.ptr ≠ o.ptr ∧ oy.ptr ≠ o'.ptr := by
    intro y oy hy hoy
    have h1 : oy.ptr ≠ o.ptr := fun hp => hy (h.inj _ _ _ _ hoy ho hp)
    refine ⟨h1, ?_⟩
    rcases hu.ptr with e1 | ⟨a, -, -⟩
    · rw [e1]; exact h1
    · obtain ⟨_, _, hry, -, -⟩ := h.some_of hoy
      have := hry.lt h.fresh
      omega
  refine ⟨h.fresh.upd hu hlt, ?_, ?_, ?_, ?_⟩
  · intro y hy
    unfold Env.set at hy
    split at hy
    · cases hy
    · rename_i hne
      simp only [if_neg hne]
      exact h.dead y hy
  · intro y v' hy
    unfold Env.set at hy
    split at hy
    · rename_i he
      cases hy
      exact ⟨o', by simp [he], hr, hs, hl⟩
    · rename_i hne
      obtain ⟨oy, hoy, hry, r⟩ := h.live y v' hy
      obtain ⟨a, b⟩ := hsep y oy hne hoy
      exact ⟨oy, by simp [hne, hoy], hry.congr (hu.other _ a b), r⟩
  · intro y z oy oz hy hz hp
    simp only at hy hz
    by_cases hyx : y = x <;> by_cases hzx : z = x
    · rw [hyx, hzx]
    · rw [if_pos hyx] at hy
      rw [if_neg hzx] at hz
      cases hy
      exact absurd hp.symm (hsep z oz hzx hz).2
    · rw [if_neg hyx] at hy
      rw [if_pos hzx] at hz
      cases hz
      exact absurd hp (hsep y oy hyx hy).2
    · rw [if_neg hyx] at hy
      rw [if_neg hzx] at hz
      exact h.inj _ _ _ _ hy hz hp
  · intro p b hb
    simp only at hb
    by_cases hp' : p = o'.ptr
    · exact ⟨x, o', by simp, hp'.symm⟩
    by_cases hp : p = o.ptr
    · rcases hu.ptr with e1 | ⟨-, -, c⟩
      · exact absurd (hp.trans e1.symm) hp'
      · rw [hp, c] at hb; cases hb
    · rw [hu.other p hp hp'] at hb
      obtain ⟨y, oy, hy, hpy⟩ := h.owned p b hb
      refine ⟨y, oy, ?_, hpy⟩
      have : y ≠ x := by
        intro hyx
        rw [hyx, ho] at hy
        cases hy
        exact hp hpy.symm
      simp [this, hy]

/-- What a constructor does to the memory. -/
structure New (m m' : Mem) (o' : Obj) : Prop where
  lo : m.next ≤ o'.ptr
  hi : o'.ptr < m'.next
  other : ∀ q, q ≠ o'.ptr → m'.blk q = m.blk q

theorem Inv.bindNew {s : St} {e : Env} (h : Inv s e) {x : Nat} {o' : Obj} {w : Str} {m' : Mem} (hx : e x = none)
    (hu : New s.mem m' o') (hr : Rep m' o' w) (hs : o'.size ≤ 2 ^ 30) (hl : w.length ≤ limit) :
    Inv ⟨m', fun y => if y = x then some o' else s.objs y⟩ (e.set x (some w)) := by
  have hsep : ∀ y oy, s.objs y = some oy → oy.ptr ≠ o'.ptr := by
    intro y oy hoy
    obtain ⟨_, _, hry, -, -⟩ := h.some_of hoy
    have := hry.lt h.fresh
    have := hu.lo
    omega
  refine ⟨?_, ?_, ?_, ?_, ?_⟩
  · intro q hq
    have h1 := hu.lo
    have h2 := hu.hi
    simp only at hq ⊢
    rw [hu.other q (by omega)]
    exact h.fresh q (by omega)
  · intro y hy
    unfold Env.set at hy
    split at hy
    · cases hy
    · rename_i hne
      simp only [if_neg hne]
      exact h.dead y hy
  · intro y v' hy
    unfold Env.set at hy
    split at hy
    · rename_i he
      cases hy
      exact ⟨o', by simp [he], hr, hs, hl⟩
    · rename_i hne
      obtain ⟨oy, hoy, hry, r⟩ := h.live y v' hy
      exact ⟨oy, by simp [hne, hoy], hry.congr (hu.other _ (hsep y oy hoy)), r⟩
  · intro y z oy oz hy hz hp
    simp only at hy hz
    by_cases hyx : y = x <;> by_cases hzx : z = x
    · rw [hyx, hzx]
    · rw [if_pos hyx] at hy
      rw [if_neg hzx] at hz
      cases hy
      exact absurd hp.symm (hsep z oz hz)
    · rw [if_neg hyx] at hy
      rw [if_pos hzx] at hz
      cases hz
      exact absurd hp (hsep y oy hy)
    · rw [if_neg hyx] at hy
      rw [if_neg hzx] at hz
      exact h.inj _ _ _ _ hy hz hp
  · intro p b hb
    simp only at hb
    by_cases hp' : p = o'.ptr
    · exact ⟨x, o', by simp, hp'.symm⟩
    · rw [hu.other p hp'] at hb
      obtain ⟨y, oy, hy, hpy⟩ := h.owned p b hb
      refine ⟨y, oy, ?_, hpy⟩
      have : y ≠ x := by
        intro hyx
        rw [hyx, h.dead x hx] at hy
        cases hy
      simp [this, hy]

theorem Inv.del {s : St} {e : Env} (h : Inv s e) {x : Nat} {o : Obj} (ho : s.objs x = some o) :
    ∃ m', destroy o s.mem = .ok m' ∧ Inv ⟨m', fun y => if y = x then none else s.objs y⟩ (e.set x none) := by
  obtain ⟨v, hv, ⟨b, hb, hb'⟩, -, -⟩ := h.some_of ho
  obtain ⟨m', h1, n1, f1, o1⟩ := free_ok hb
  have hsep : ∀ y oy, y ≠ x → s.objs y = some oy → oy.ptr ≠ o.ptr := fun y oy hy hoy hp => hy (h.inj _ _ _ _ hoy ho hp)
  refine ⟨m', h1, ?_, ?_, ?_, ?_, ?_⟩
  · intro q hq
    simp only at hq ⊢
    by_cases hq2 : q = o.ptr
    · rw [hq2]; exact f1
    · rw [o1 q hq2]; exact h.fresh q (by omega)
  · intro y hy
    by_cases hyx : y = x
    · simp [hyx]
    · simp only [Env.set, if_neg hyx] at hy ⊢
      exact h.dead y hy
  · intro y v' hy
    by_cases hyx : y = x
    · simp [Env.set, hyx] at hy
    · simp only [Env.set, if_neg hyx] at hy ⊢
      obtain ⟨oy, hoy, hry, r⟩ := h.live y v' hy
      exact ⟨oy, hoy, hry.congr (o1 _ (hsep y oy hyx hoy)), r⟩
  · intro y z oy oz hy hz hp
    simp only at hy hz
    by_cases hyx : y = x
    · simp [hyx] at hy
    by_cases hzx : z = x
    · simp [hzx] at hz
    rw [if_neg hyx] at hy
    rw [if_neg hzx] at hz
    exact h.inj _ _ _ _ hy hz hp
  · intro p b' hp
    simp only at hp
    by_cases hq : p = o.ptr
    · rw [hq, f1] at hp; cases hp
    rw [o1 p hq] at hp
    obtain ⟨y, oy, hy, hpy⟩ := h.owned p b' hp
    refine ⟨y, oy, ?_, hpy⟩
    have : y ≠ x := by
      intro hyx
      rw [hyx, ho] at hy
      cases hy
      exact hq hpy.symm
    simp [this, hy]

/-! ### Arguments -/

theorem arg_ok {s : St} {e : Env} (h : Inv s e) {a : Arg} {t : Str} (ha : Spec.arg e a = some t) :
    ∃ c, s.arg a = .ok c ∧ ∀ m', (∀ y off o, a = .text y off → s.objs y = some o → m'.blk o.ptr = s.mem.blk o.ptr) → c.str m' = .ok t := by
  cases a with
  | lit u =>
    simp only [Spec.arg, Option.some.injEq] at ha
    exact ⟨.lit u, rfl, fun m' _ => by rw [CArg.str, ← ha]; rfl⟩
  | text y off =>
    rw [Spec.arg] at ha
    cases hy : e y with
    | none => rw [hy] at ha; cases ha
    | some v =>
      rw [hy] at ha
      simp only [Option.bind_some] at ha
      split at ha
      · rename_i hoff
        cases ha
        obtain ⟨o, ho, hr, -, -⟩ := h.live y v hy
        refine ⟨.at o.ptr off, ?_, fun m' hm => ?_⟩
        · simp [St.arg, St.get, ho, Except.map]
        · rw [CArg.str]
          exact (hr.congr (hm y off o rfl ho)).cstr hoff
      · cases ha

theorem pieces_ok {s : St} {e : Env} (h : Inv s e) {fs : List APiece} {t : Str} (ha : printed e fs = some t) :
    ∃ ps, s.pieces fs = .ok ps ∧ (∀ m', (∀ y o, s.objs y = some o → m'.blk o.ptr = s.mem.blk o.ptr) → render m' ps = .ok t) ∧
      (ps.any Piece.takesArg = true ↔ hasArgs fs) ∧ (ps.map Piece.fmtLen).sum = fmtLen fs := by
  induction fs generalizing t with
  | nil =>
    simp only [printed, Option.some.injEq] at ha
    subst ha
    exact ⟨[], rfl, fun _ _ => rfl, by simp [hasArgs], rfl⟩
  | cons f fs ih =>
    cases f with
    | text u =>
      simp only [printed] at ha
      cases hp : printed e fs with
      | none => rw [hp] at ha; cases ha
      | some t' =>
        rw [hp] at ha
        cases ha
        obtain ⟨ps, h1, h2, h3, h4⟩ := ih hp
        refine ⟨.text u :: ps, ?_, fun m' hm => ?_, ?_, ?_⟩
        · rw [St.pieces, h1]; rfl
        · rw [render, Piece.render]
          change (render m' ps >>= _) = _
          rw [h2 m' hm]; rfl
        · simp only [List.any_cons, Piece.takesArg, Bool.false_or, h3]
          unfold hasArgs
          simp
        · simp only [List.map_cons, List.sum_cons, h4, Piece.fmtLen, fmtLen]
    | dec z =>
      simp only [printed] at ha
      cases hp : printed e fs with
      | none => rw [hp] at ha; cases ha
      | some t' =>
        rw [hp] at ha
        cases ha
        obtain ⟨ps, h1, h2, h3, h4⟩ := ih hp
        refine ⟨.dec z :: ps, ?_, fun m' hm => ?_, ?_, ?_⟩
        · rw [St.pieces, h1]; rfl
        · rw [render, Piece.render]
          change (render m' ps >>= _) = _
          rw [h2 m' hm]; rfl
        · simp only [List.any_cons, Piece.takesArg, Bool.true_or, true_iff]
          exact ⟨.dec z, by simp, by simp⟩
        · simp only [List.map_cons, List.sum_cons, h4, Piece.fmtLen, fmtLen]
    | chars a =>
      simp only [printed] at ha
      cases hq : Spec.arg e a with
      | none => rw [hq] at ha; cases ha
      | some u =>
        rw [hq] at ha
        simp only [Option.bind_some] at ha
        cases hp : printed e fs with
        | none => rw [hp] at ha; cases ha
        | some t' =>
          rw [hp] at ha
          cases ha
          obtain ⟨ps, h1, h2, h3, h4⟩ := ih hp
          obtain ⟨c, hc, hc2⟩ := arg_ok h hq
          refine ⟨.chars c :: ps, ?_, fun m' hm => ?_, ?_, ?_⟩
          · rw [St.pieces, hc]
            change (s.pieces fs >>= _) = _
            rw [h1]; rfl
          · rw [render, Piece.render, hc2 m' (fun y off o _ ho => hm y o ho)]
            change (render m' ps >>= _) = _
            rw [h2 m' hm]; rfl
          · simp only [List.any_cons, Piece.takesArg, Bool.true_or, true_iff]
            exact ⟨.chars a, by simp, by simp⟩
          · simp only [List.map_cons, List.sum_cons, h4, Piece.fmtLen, fmtLen]

/-! ### Constructors -/

theorem mkEmpty_ok (m : Mem) : ∃ o' m', mkEmpty m = .ok (o', m') ∧ New m m' o' ∧ Rep m' o' [] ∧ o'.size = 17 := by
  obtain ⟨m', h1, n1, o1, b1, hb1, s1, c1⟩ := wr_ok (m := (alloc 17 m).2) (p := m.next) (i := 0) (b := ⟨17, fun _ => none⟩)
    (by simp [alloc]) (by norm_num) nul
  refine ⟨⟨0, 17, m.next⟩, m', ?_, ⟨le_rfl, ?_, fun q hq => ?_⟩, ?_, rfl⟩
  · unfold mkEmpty
    change (wr m.next 0 nul (alloc 17 m).2 >>= _) = _
    rw [h1]; rfl
  · rw [n1]; simp [alloc]
  · rw [o1 q hq]; simp only [alloc]; exact if_neg hq
  · refine ⟨b1, hb1, s1, rfl, by simp, fun i hi => ?_⟩
    have : i = 0 := by simpa using hi
    subst this
    rw [c1, if_pos rfl]; rfl

theorem mkCopy_ok {m : Mem} {o : Obj} {v : Str} (hf : Fresh m) (h : Rep m o v) (hs : o.size ≤ 2 ^ 30) :
    ∃ o' m', mkCopy o m = .ok (o', m') ∧ New m m' o' ∧ Rep m' o' v ∧ o'.size = o.size := by
  have hlt : v.length < o.size := h.choose_spec.2.2.2.1
  obtain ⟨m', h1, n1, o1, r1⟩ := copy_block h hf hlt (by omega)
  refine ⟨⟨o.length, o.size, m.next⟩, m', ?_, ⟨le_rfl, by simp only; omega, o1⟩, r1, rfl⟩
  unfold mkCopy
  change (memcpy _ _ _ _ _ _ >>= _) = _
  rw [h1]; rfl

theorem mkFmt_ok {m : Mem} (hf : Fresh m) (ps : List Piece) {t : Str}
    (hr : ∀ m', (∀ q, q < m.next → m'.blk q = m.blk q) → render m' ps = .ok t)
    (hfit : t.length < 127 ∨ (ps.any Piece.takesArg = false ∧ t.length < 2 ^ 30 - 1)) (hl : (ps.map Piece.fmtLen).sum ≤ limit) :
    ∃ o' m', mkFmt ps m = .ok (o', m') ∧ New m m' o' ∧ Rep m' o' (t.takeWhile (· ≠ nul)) ∧
      (o'.size ≤ limit + 1 ∨ o'.size < 2 * (t.length + 1)) := by
  have hlim : limit = 2 ^ 28 := rfl
  have hmod : ((ps.map Piece.fmtLen).sum + 1) % 2 ^ 32 = (ps.map Piece.fmtLen).sum + 1 := Nat.mod_eq_of_lt (by omega)
  obtain ⟨m1, h1, n1, o1, b1, hb1, s1, c1⟩ := wr_ok (m := (alloc ((ps.map Piece.fmtLen).sum + 1) m).2) (p := m.next) (i := 0)
    (b := ⟨(ps.map Piece.fmtLen).sum + 1, fun _ => none⟩) (by simp [alloc]) (by simp) nul
  have hn : m1.next = m.next + 1 := by rw [n1]; rfl
  have ho1 : ∀ q, q ≠ m.next → m1.blk q = m.blk q := fun q hq => by
    rw [o1 q hq]; simp only [alloc]; exact if_neg hq
  have hrep : Rep m1 ⟨0, (ps.map Piece.fmtLen).sum + 1, m.next⟩ [] := by
    refine ⟨b1, hb1, s1, rfl, by simp, fun i hi => ?_⟩
    have : i = 0 := by simpa using hi
    subst this
    rw [c1, if_pos rfl]; rfl
  have hf1 : Fresh m1 := fun q hq => by rw [ho1 q (by omega)]; exact hf q (by omega)
  obtain ⟨o', m', h2, hu, hr2, hs2⟩ := appendF_ok hrep hf1 ps (hr m1 fun q hq => ho1 q (by omega)) hfit (by simp; omega)
  refine ⟨o', m', ?_, ?_, hr2, ?_⟩
  · unfold mkFmt
    simp only [hmod]
    change (wr m.next 0 nul (alloc ((ps.map Piece.fmtLen).sum + 1) m).2 >>= _) = _
    rw [h1]; exact h2
  · have hnx := hu.next
    rcases hu.ptr with e1 | ⟨a, b, c⟩
    · simp only at e1
      refine ⟨by omega, by omega, fun q hq => ?_⟩
      rw [hu.other q (by simp only; omega) hq, ho1 q (by omega)]
    · simp only at c
      refine ⟨by omega, b, fun q hq => ?_⟩
      by_cases hq2 : q = m.next
      · rw [hq2, c, hf _ le_rfl]
      · rw [hu.other q hq2 hq, ho1 q hq2]
  · simp only [List.length_nil, Nat.zero_add] at hs2
    omega

/-! ### Lines -/

theorem fgets_cases (file : Str) (hne : file ≠ []) :
    (∃ rest, file = file.takeWhile (· ≠ '\n') ++ '\n' :: rest ∧ fgets file = some (file.takeWhile (· ≠ '\n') ++ ['\n'], rest)) ∨
    (∃ a d, file = a ++ d ∧ a ≠ [] ∧ '\n' ∉ a ∧ file.takeWhile (· ≠ '\n') = a ++ d.takeWhile (· ≠ '\n') ∧ fgets file = some (a, d)) := by
  have hsplit : file.take 127 ++ file.drop 127 = file := List.take_append_drop 127 file
  have hle : ((file.take 127).takeWhile (· ≠ '\n')).length ≤ (file.take 127).length := (List.takeWhile_sublist _).length_le
  have htw : file.takeWhile (· ≠ '\n') = if ((file.take 127).takeWhile (· ≠ '\n')).length = (file.take 127).length then
      file.take 127 ++ (file.drop 127).takeWhile (· ≠ '\n') else (file.take 127).takeWhile (· ≠ '\n') := by
    rw [← List.takeWhile_append, hsplit]
  by_cases hlt : ((file.take 127).takeWhile (· ≠ '\n')).length < (file.take 127).length
  · left
    rw [if_neg (by omega)] at htw
    have hlen : (file.takeWhile (· ≠ '\n')).length < file.length := by
      rw [htw]
      have : (file.take 127).length ≤ file.length := by simp
      omega
    have hdw : file = file.takeWhile (· ≠ '\n') ++ file.dropWhile (· ≠ '\n') := (List.takeWhile_append_dropWhile).symm
    cases hd : file.dropWhile (· ≠ '\n') with
    | nil =>
      rw [hd, List.append_nil] at hdw
      rw [← hdw] at hlen
      omega
    | cons c rest =>
      have hc : c = '\n' := by
        have := List.head_dropWhile_not (fun c => decide (c ≠ '\n')) (l := file) (by rw [hd]; simp)
        simp only [hd, List.head_cons] at this
        simpa using this
      subst hc
      rw [hd] at hdw
      refine ⟨rest, hdw, ?_⟩
      unfold fgets
      rw [if_neg hne]
      simp only
      rw [if_pos hlt, ← htw]
      congr 2
      conv_lhs => rw [hdw]
      rw [← List.drop_drop, List.drop_append_of_le_length (by rw [← hdw]), ← hdw, List.drop_length]
      rfl
  · right
    have heq : ((file.take 127).takeWhile (· ≠ '\n')).length = (file.take 127).length := by omega
    rw [if_pos heq] at htw
    have hself : (file.take 127).takeWhile (· ≠ '\n') = file.take 127 := (List.takeWhile_sublist _).eq_of_length heq
    refine ⟨file.take 127, file.drop 127, hsplit.symm, ?_, ?_, htw, ?_⟩
    · simpa using hne
    · intro hm
      rw [← hself] at hm
      have := List.all_eq_true.1 (List.all_takeWhile (l := file.take 127) (p := fun c => decide (c ≠ '\n'))) _ hm
      simp at this
    · unfold fgets
      rw [if_neg hne]
      simp only
      rw [if_neg hlt, hself]
      congr 2
      conv_lhs => rw [← hsplit]
      rw [List.drop_append_of_le_length (by rw [hsplit]), hsplit, List.drop_length, List.nil_append]

theorem takeWhile_of_notMem {t : Str} (h : nul ∉ t) : t.takeWhile (· ≠ nul) = t := by
  induction t with
  | nil => rfl
  | cons c t ih =>
    simp only [List.mem_cons, not_or] at h
    rw [List.takeWhile_cons_of_pos (by simpa using Ne.symm h.1), ih h.2]

theorem rd_last {m : Mem} {o : Obj} {bs : Str} {c : Char} (h : Rep m o (bs ++ [c])) : rd o.ptr bs.length m = .ok c := by
  have h1 := h.has.drop (k := bs.length) (by simp)
  have h2 : (bs ++ [c] ++ [nul]).drop bs.length = [c, nul] := by simp
  rw [h2] at h1
  exact h1.head

theorem lineLoop_ok (k : Nat) : ∀ (file : Str) (m : Mem) (o : Obj) (bs : Str), file.length < k → Rep m o bs → Fresh m → nul ∉ file → '\n' ∉ bs →
    bs.length + file.length ≤ limit → o.size ≤ 2 ^ 30 →
    ∃ o' m', lineLoop k file o m = .ok (!decide (bs = [] ∧ file = []), file.drop ((file.takeWhile (· ≠ '\n')).length + 1), o', m') ∧
      Upd m o m' o' ∧ Rep m' o' (bs ++ file.takeWhile (· ≠ '\n')) ∧ o'.size ≤ 2 ^ 30 := by
  have hlim : limit = 2 ^ 28 := rfl
  induction k with
  | zero => intro _ _ _ _ h; omega
  | succ k ih =>
    intro file m o bs hk hrep hf hnul hnl hlen hsz
    have hl : o.length = bs.length := hrep.choose_spec.2.2.1
    by_cases hne : file = []
    · subst hne
      refine ⟨o, m, ?_, Upd.refl m o, by simpa using hrep, hsz⟩
      rw [lineLoop]
      change (if o.length > 0 then _ else _) = _
      rcases List.eq_nil_or_concat bs with rfl | ⟨bs', c, rfl⟩
      · rw [if_neg (by rw [hl]; simp)]; simp
      · rw [if_pos (by rw [hl]; simp)]
        have : o.length - 1 = bs'.length := by rw [hl]; simp
        rw [List.concat_eq_append] at hrep hnl
        rw [this, rd_last hrep]
        change (if c = '\n' then _ else _) = _
        rw [if_neg (by rintro rfl; exact hnl (by simp))]
        simp
    · rcases fgets_cases file hne with ⟨rest, hfile, hg⟩ | ⟨a, d, hfile, hane, hnla, htw, hg⟩
      · have hnt : nul ∉ file.takeWhile (· ≠ '\n') ++ ['\n'] := by
          intro hm
          rcases List.mem_append.1 hm with hm | hm
          · exact hnul ((List.takeWhile_sublist _).mem hm)
          · simp at hm; exact absurd hm (by decide)
        have hlf : (file.takeWhile (· ≠ '\n')).length + 1 ≤ file.length := by
          conv_rhs => rw [hfile]
          simp
        generalize hT : file.takeWhile (· ≠ '\n') = T at *
        obtain ⟨o1, m1, h1, hu1, hr1, hs1⟩ := appendN_ok hrep hf (cs := T ++ ['\n']) (by simp; omega) (.loc (T ++ ['\n'])) (.inl ⟨_, rfl, List.prefix_rfl⟩)
        have hl1 : o1.length = (bs ++ T).length + 1 := by rw [hr1.choose_spec.2.2.1]; simp; omega
        rw [← List.append_assoc] at hr1
        have hrd := rd_last hr1
        obtain ⟨b, hb, hbs, _, hblt, hc⟩ := id hr1
        simp only [List.length_append, List.length_singleton] at hblt hl1
        obtain ⟨m2, h2, n2, q2, b2, hb2, s2, c2⟩ := wr_ok (i := (bs ++ T).length) hb (by rw [hbs]; simp; omega) nul
        refine ⟨{ o1 with length := (bs ++ T).length }, m2, ?_, ?_, ?_, ?_⟩
        · rw [lineLoop, hg]
          simp only
          rw [takeWhile_of_notMem hnt, Nat.mod_eq_of_lt (by simp; omega), h1]
          change (rd o1.ptr ((o1.length + 2 ^ 32 - 1) % 2 ^ 32) m1 >>= _) = _
          have e1 : (o1.length + 2 ^ 32 - 1) % 2 ^ 32 = (bs ++ T).length := by
            rw [hl1, List.length_append]; omega
          rw [e1, hrd]
          have e2 : o1.length - 1 = (bs ++ T).length := by rw [hl1, List.length_append]; omega
          change (wr o1.ptr (o1.length - 1) nul m1 >>= _) = _
          simp only [e2]
          rw [h2]
          have e3 : rest = file.drop (T.length + 1) := by
            rw [hfile, ← List.drop_drop, List.drop_left]; rfl
          rw [← e3]
          simp [hne]
          rfl
        · exact hu1.trans (Upd.inPlace (o := o1) rfl n2 q2) (hrep.lt hf) hf
        · refine ⟨b2, hb2, by rw [s2, hbs], rfl, by simp; omega, fun i hi => ?_⟩
          rw [c2]
          by_cases hi2 : i = (bs ++ T).length
          · rw [if_pos hi2, hi2, List.getElem?_append_right le_rfl]; simp
          · rw [if_neg hi2, hc i (by simp at hi ⊢; omega), List.getElem?_append_left (by simp at hi hi2 ⊢; omega),
              List.getElem?_append_left (l₂ := ['\n']) (by omega), List.getElem?_append_left (l₂ := [nul]) (by omega)]
        · simp only
          simp only [List.length_append, List.length_singleton] at hs1
          omega
      · have hna : nul ∉ a := fun hm => hnul (by rw [hfile]; simp [hm])
        have hlf : file.length = a.length + d.length := by
          conv_lhs => rw [hfile]
          simp
        have hap : 0 < a.length := List.length_pos_iff.2 hane
        obtain ⟨o1, m1, h1, hu1, hr1, hs1⟩ := appendN_ok hrep hf (cs := a) (by omega) (.loc a) (.inl ⟨_, rfl, List.prefix_rfl⟩)
        have hl1 : o1.length = bs.length + a.length := by rw [hr1.choose_spec.2.2.1]; simp
        have hlt := hrep.lt hf
        obtain ⟨o2, m2, h2, hu2, hr2, hs2⟩ := ih d m1 o1 (bs ++ a) (by omega) hr1 (hf.upd hu1 hlt)
          (fun hm => hnul (by rw [hfile]; simp [hm])) (by simp [hnl, hnla]) (by simp; omega) (by omega)
        refine ⟨o2, m2, ?_, hu1.trans hu2 hlt hf, by rw [htw, ← List.append_assoc]; exact hr2, hs2⟩
        rw [lineLoop, hg]
        simp only
        rw [takeWhile_of_notMem hna, Nat.mod_eq_of_lt (by omega), h1]
        change (rd o1.ptr ((o1.length + 2 ^ 32 - 1) % 2 ^ 32) m1 >>= _) = _
        rcases List.eq_nil_or_concat a with rfl | ⟨a', c, rfl⟩
        · exact absurd rfl hane
        rw [List.concat_eq_append] at *
        have e1 : (o1.length + 2 ^ 32 - 1) % 2 ^ 32 = (bs ++ a').length := by
          rw [hl1]; simp only [List.length_append, List.length_singleton] at hlen hlf ⊢; omega
        have hr1' := hr1
        rw [← List.append_assoc] at hr1'
        rw [e1, rd_last hr1']
        change (if c = '\n' then _ else _) = _
        have eb : (!decide (bs ++ (a' ++ [c]) = [] ∧ d = [])) = true := by simp
        have eb' : (!decide (bs = [] ∧ file = [])) = true := by simp [hne]
        have ed : file.drop ((file.takeWhile (· ≠ '\n')).length + 1) = d.drop ((d.takeWhile (· ≠ '\n')).length + 1) := by
          rw [htw, List.length_append, Nat.add_assoc, ← List.drop_drop]
          conv_lhs => rw [hfile]
          rw [List.drop_left]
        rw [if_neg (by rintro rfl; exact hnla (by simp)), h2, eb, eb', ed]

theorem nextLine_ok {file : Str} {m : Mem} {o : Obj} {bs : Str} (hrep : Rep m o bs) (hf : Fresh m) (hnul : nul ∉ file)
    (hlen : file.length ≤ limit) (hsz : o.size ≤ 2 ^ 30) :
    ∃ o' m', nextLine file o m = .ok (!decide (file = []), file.drop ((file.takeWhile (· ≠ '\n')).length + 1), o', m') ∧
      Upd m o m' o' ∧ Rep m' o' (file.takeWhile (· ≠ '\n')) ∧ o'.size ≤ 2 ^ 30 := by
  obtain ⟨m1, h1, n1, q1, r1⟩ := clear_ok hrep
  have hu1 : Upd m o m1 { o with length := 0 } := Upd.inPlace rfl n1 q1
  have hlt := hrep.lt hf
  obtain ⟨o2, m2, h2, hu2, hr2, hs2⟩ := lineLoop_ok (file.length + 1) file m1 { o with length := 0 } [] (by omega) r1 (hf.upd hu1 hlt)
    hnul (by simp) (by simpa using hlen) hsz
  refine ⟨o2, m2, ?_, hu1.trans hu2 hlt hf, by simpa using hr2, hs2⟩
  unfold nextLine
  rw [h1]
  change lineLoop (file.length + 1) file { o with length := 0 } m1 = _
  rw [h2]
  simp

theorem strcmp_ok (u w : Str) : (strcmp u w = 0 ↔ u = w) ∧ (strcmp u w < 0 ↔ List.Lex (fun x y : Char => x.toNat < y.toNat) u w) ∧
    (0 < strcmp u w ↔ List.Lex (fun x y : Char => x.toNat < y.toNat) w u) := by
  induction u generalizing w with
  | nil =>
    cases w with
    | nil => simp [strcmp]
    | cons d w => simp [strcmp]
  | cons c u ih =>
    cases w with
    | nil => simp [strcmp]
    | cons d w =>
      by_cases hcd : c = d
      · subst hcd
        obtain ⟨h1, h2, h3⟩ := ih w
        have hlex : ∀ a b : Str, List.Lex (fun x y : Char => x.toNat < y.toNat) (c :: a) (c :: b) ↔ List.Lex (fun x y : Char => x.toNat < y.toNat) a b := by
          intro a b
          constructor
          · intro hh
            cases hh with
            | cons hh => exact hh
            | rel hh => omega
          · exact .cons
        rw [hlex, hlex, strcmp, if_pos rfl]
        simp only [List.cons.injEq, true_and]
        exact ⟨h1, h2, h3⟩
      · have hne : c.toNat ≠ d.toNat := fun hh => hcd (Char.toNat_inj.1 hh)
        rw [strcmp, if_neg hcd]
        simp only [List.cons.injEq, hcd, false_and, iff_false]
        by_cases hlt : c.toNat < d.toNat
        · rw [if_pos hlt]
          refine ⟨by norm_num, ⟨fun _ => .rel hlt, fun _ => by norm_num⟩, ⟨fun hh => by norm_num at hh, fun hh => ?_⟩⟩
          cases hh with
          | cons _ => exact absurd rfl hcd
          | rel hh => omega
        · rw [if_neg hlt]
          refine ⟨by norm_num, ⟨fun hh => by norm_num at hh, fun hh => ?_⟩, ⟨fun _ => .rel (by omega), fun _ => by norm_num⟩⟩
          cases hh with
          | cons _ => exact absurd rfl hcd
          | rel hh => omega

theorem render_one {m : Mem} {c : CArg} {t : Str} (h : c.str m = .ok t) : render m [.chars c] = .ok t := by
  rw [render, Piece.render, h]
  change Except.ok (t ++ []) = _
  rw [List.append_nil]

/-! ### Statements -/

theorem step_ok {s : St} {e e' : Env} {op : Op} (h : Inv s e) (hst : Step e op e') : ∃ s', step s op = .ok s' ∧ Inv s' e' := by
  have hlim : limit = 2 ^ 28 := rfl
  have hget : ∀ {x v}, e x = some v → ∃ o, s.get x = .ok o ∧ s.objs x = some o ∧ Rep s.mem o v ∧ o.size ≤ 2 ^ 30 ∧ v.length ≤ limit := by
    intro x v hx
    obtain ⟨o, ho, r⟩ := h.live x v hx
    exact ⟨o, by rw [St.get, ho], ho, r⟩
  have hbind : ∀ {x o' m'}, e x = none → s.bindNew x (.ok (o', m')) = .ok ⟨m', fun y => if y = x then some o' else s.objs y⟩ := by
    intro x o' m' hx
    rw [St.bindNew, h.dead x hx]; rfl
  have hbd : ∀ m' : Mem, (∀ q, q < s.mem.next → m'.blk q = s.mem.blk q) → ∀ y o, s.objs y = some o → m'.blk o.ptr = s.mem.blk o.ptr := by
    intro m' hm y o ho
    obtain ⟨_, _, hr, -, -⟩ := h.some_of ho
    exact hm _ (hr.lt h.fresh)
  cases hst with
  | @new x hx =>
    obtain ⟨o', m', h1, h2, h3, h4⟩ := mkEmpty_ok s.mem
    refine ⟨_, ?_, h.bindNew hx h2 h3 (by omega) (by simp)⟩
    rw [step, h1, hbind hx]
  | @copy x y v hx hy =>
    obtain ⟨o, hg, ho, hr, hs, hl⟩ := hget hy
    obtain ⟨o', m', h1, h2, h3, h4⟩ := mkCopy_ok h.fresh hr hs
    refine ⟨_, ?_, h.bindNew hx h2 h3 (by omega) hl⟩
    rw [step, hg]
    change s.bindNew x _ = _
    rw [h1, hbind hx]
  | @fmt x fs t hx hp hpr hl =>
    obtain ⟨ps, h1, h2, h3, h4⟩ := pieces_ok h hp
    have hle : (cpart t).length ≤ t.length := (List.takeWhile_sublist _).length_le
    have hfit : t.length < 127 ∨ (ps.any Piece.takesArg = false ∧ t.length < 2 ^ 30 - 1) := by
      rcases hpr with hp | ⟨ha, hp⟩
      · exact .inl hp
      · exact .inr ⟨by rw [← h3] at ha; simpa using ha, by omega⟩
    have htl : t.length ≤ limit := by
      rcases hpr with hp | ⟨-, hp⟩ <;> omega
    obtain ⟨o', m', h5, h6, h7, h8⟩ := mkFmt_ok h.fresh ps (fun m' hm => h2 m' (hbd m' hm)) hfit (by omega)
    refine ⟨_, ?_, h.bindNew hx h6 h7 (by omega) (hle.trans htl)⟩
    rw [step, h1]
    change s.bindNew x _ = _
    rw [h5, hbind hx]
  | @del x v hx =>
    obtain ⟨o, hg, ho, hr, hs, hl⟩ := hget hx
    obtain ⟨m', h1, h2⟩ := h.del ho
    refine ⟨_, ?_, h2⟩
    rw [step, hg]
    change (destroy o s.mem >>= _) = _
    rw [h1]; rfl
  | @assignSelf x v hx =>
    obtain ⟨o, hg, -⟩ := hget hx
    refine ⟨s, ?_, h⟩
    rw [step, hg]
    change (if x = x then _ else _) = _
    rw [if_pos rfl]
  | @assign x y v w hx hy hxy hlen =>
    obtain ⟨o, hg, ho, hr, hs, hl⟩ := hget hx
    obtain ⟨oy, hgy, hoy, hry, hsy, hly⟩ := hget hy
    obtain ⟨m1, h1, n1, q1, r1⟩ := clear_ok hr
    have hu1 : Upd s.mem o m1 { o with length := 0 } := Upd.inPlace rfl n1 q1
    have hlt := hr.lt h.fresh
    have hne : oy.ptr ≠ o.ptr := fun hp => hxy (h.inj _ _ _ _ ho hoy hp.symm)
    have hrend : render m1 [.chars (.at oy.ptr 0)] = .ok (cpart w) := by
      have := (hry.congr (q1 _ hne)).cstr (off := 0) (by simp)
      exact render_one this
    obtain ⟨o', m', h2, hu2, hr2, hs2⟩ := appendF_ok r1 (h.fresh.upd hu1 hlt) _ hrend (.inl hlen) (by simp only [List.length_nil]; omega)
    have hcc : (cpart w).takeWhile (· ≠ nul) = cpart w := takeWhile_of_notMem (nul_notMem_takeWhile w)
    rw [hcc, List.nil_append] at hr2
    simp only [List.length_nil] at hs2
    refine ⟨_, ?_, h.put ho (hu1.trans hu2 hlt h.fresh) hr2 (by omega) (by omega)⟩
    rw [step, hg, ]
    change (s.get y >>= _) = _
    rw [hgy]
    change (if x = y then _ else _) = _
    rw [if_neg hxy]
    have : assign oy o s.mem = .ok (o', m') := by
      unfold assign
      rw [h1]
      exact h2
    rw [this]; rfl
  | @assignNull x v hx =>
    obtain ⟨o, hg, ho, hr, hs, hl⟩ := hget hx
    obtain ⟨m1, h1, n1, q1, r1⟩ := clear_ok hr
    refine ⟨_, ?_, h.put ho (Upd.inPlace (o' := { o with length := 0 }) rfl n1 q1) r1 hs (by simp)⟩
    rw [step, hg]
    change s.put x (assignC none o s.mem) = _
    have : assignC none o s.mem = .ok ({ o with length := 0 }, m1) := by
      unfold assignC
      rw [h1]; rfl
    rw [this]; rfl
  | @assignC x v a t hx hna ha hlen =>
    obtain ⟨o, hg, ho, hr, hs, hl⟩ := hget hx
    obtain ⟨c, hc, hc2⟩ := arg_ok h ha
    obtain ⟨m1, h1, n1, q1, r1⟩ := clear_ok hr
    have hu1 : Upd s.mem o m1 { o with length := 0 } := Upd.inPlace rfl n1 q1
    have hlt := hr.lt h.fresh
    have hrend : render m1 [.chars c] = .ok t := by
      have := hc2 m1 (fun y off oy hay hoy => q1 _ fun hp => by
        have := h.inj _ _ _ _ hoy ho hp
        subst this
        exact hna off hay)
      exact render_one this
    obtain ⟨o', m', h2, hu2, hr2, hs2⟩ := appendF_ok r1 (h.fresh.upd hu1 hlt) _ hrend (.inl hlen) (by simp only [List.length_nil]; omega)
    have hcc : t.takeWhile (· ≠ nul) = t := by
      apply takeWhile_of_notMem
      cases a with
      | lit u => simp only [Spec.arg, Option.some.injEq] at ha; rw [← ha]; exact nul_notMem_takeWhile u
      | text y off =>
        simp only [Spec.arg] at ha
        cases hy : e y with
        | none => rw [hy] at ha; cases ha
        | some u =>
          rw [hy] at ha
          simp only [Option.bind_some] at ha
          split at ha
          · cases ha; exact nul_notMem_takeWhile _
          · cases ha
    rw [hcc, List.nil_append] at hr2
    simp only [List.length_nil] at hs2
    refine ⟨_, ?_, h.put ho (hu1.trans hu2 hlt h.fresh) hr2 (by omega) (by omega)⟩
    rw [step, hg]
    change (s.arg a >>= _) = _
    rw [hc]
    change s.put x (CString.assignC (some c) o s.mem) = _
    have : CString.assignC (some c) o s.mem = .ok (o', m') := by
      unfold CString.assignC
      rw [h1]
      exact h2
    rw [this]; rfl
  | @clear x v hx =>
    obtain ⟨o, hg, ho, hr, hs, hl⟩ := hget hx
    obtain ⟨m1, h1, n1, q1, r1⟩ := clear_ok hr
    refine ⟨_, ?_, h.put ho (Upd.inPlace (o' := { o with length := 0 }) rfl n1 q1) r1 hs (by simp)⟩
    rw [step, hg]
    change s.put x (CString.clear o s.mem) = _
    rw [h1]; rfl
  | @appChar x v c hx hlen =>
    obtain ⟨o, hg, ho, hr, hs, hl⟩ := hget hx
    obtain ⟨o', m', h1, hu, hr2, hs2⟩ := appendN_ok hr h.fresh (cs := [c]) (by simp; omega) (.loc [c]) (.inl ⟨_, rfl, List.prefix_rfl⟩)
    simp only [List.length_singleton] at hs2
    refine ⟨_, ?_, h.put ho hu hr2 (by omega) (by simpa using hlen)⟩
    rw [step, hg]
    change s.put x (appendChar c o s.mem) = _
    have : appendChar c o s.mem = .ok (o', m') := h1
    rw [this]; rfl
  | @appLit x v n t hx hn hlen =>
    obtain ⟨o, hg, ho, hr, hs, hl⟩ := hget hx
    have hlt : (t.take n).length = n := by simp [hn]
    obtain ⟨o', m', h1, hu, hr2, hs2⟩ := appendN_ok hr h.fresh (cs := t.take n) (by omega) (.loc t) (.inl ⟨_, rfl, List.take_prefix _ _⟩)
    rw [hlt] at h1 hs2
    refine ⟨_, ?_, h.put ho hu hr2 (by omega) (by simp; omega)⟩
    rw [step, hg]
    change s.put x (appendN n (.loc t) o s.mem) = _
    rw [h1]; rfl
  | @appText x v n y off w hx hy hxy hoff hlen =>
    obtain ⟨o, hg, ho, hr, hs, hl⟩ := hget hx
    obtain ⟨oy, hgy, hoy, hry, hsy, hly⟩ := hget hy
    have hlt : ((w.drop off).take n).length = n := by simp; omega
    have hne : oy.ptr ≠ o.ptr := fun hp => hxy (h.inj _ _ _ _ ho hoy hp.symm)
    have hhas : Has s.mem oy.ptr off ((w.drop off).take n) := by
      have h1 := hry.has.drop (k := off) (by simp; omega)
      rw [List.drop_append_of_le_length (by omega)] at h1
      exact h1.prefix.take n
    obtain ⟨o', m', h1, hu, hr2, hs2⟩ := appendN_ok hr h.fresh (cs := (w.drop off).take n) (by omega) (.blk oy.ptr off)
      (.inr ⟨_, _, rfl, hne, hhas⟩)
    rw [hlt] at h1 hs2
    refine ⟨_, ?_, h.put ho hu hr2 (by omega) (by simp only [List.length_append, hlt]; omega)⟩
    have harg : s.arg (.text y off) = .ok (.at oy.ptr off) := by rw [St.arg, hgy]; rfl
    rw [step, hg]
    change (s.arg (.text y off) >>= _) = _
    rw [harg]
    change s.put x (appendN n (.blk oy.ptr off) o s.mem) = _
    rw [h1]; rfl
  | @appF x v fs t hx hp hpr hlen =>
    obtain ⟨o, hg, ho, hr, hs, hl⟩ := hget hx
    obtain ⟨ps, h1, h2, h3, h4⟩ := pieces_ok h hp
    have hle : (cpart t).length ≤ t.length := (List.takeWhile_sublist _).length_le
    have hfit : t.length < 127 ∨ (ps.any Piece.takesArg = false ∧ t.length < 2 ^ 30 - 1) := by
      rcases hpr with hp | ⟨ha, hp⟩
      · exact .inl hp
      · exact .inr ⟨by rw [← h3] at ha; simpa using ha, by omega⟩
    obtain ⟨o', m', h5, h6, h7, h8⟩ := appendF_ok hr h.fresh ps (h2 s.mem fun _ _ _ => rfl) hfit (by omega)
    refine ⟨_, ?_, h.put (w := v ++ cpart t) ho h6 h7 (by omega) (by rw [List.length_append]; omega)⟩
    rw [step, hg]
    change (s.pieces fs >>= _) = _
    rw [h1]
    change s.put x (appendF ps o s.mem) = _
    rw [h5]; rfl
  | @nextLine x v file hx hnul hlen =>
    obtain ⟨o, hg, ho, hr, hs, hl⟩ := hget hx
    obtain ⟨o', m', h1, h2, h3, h4⟩ := nextLine_ok hr h.fresh hnul hlen hs
    have hle : (file.takeWhile (· ≠ '\n')).length ≤ file.length := (List.takeWhile_sublist _).length_le
    refine ⟨_, ?_, h.put ho h2 h3 h4 (by omega)⟩
    rw [step, hg]
    change s.put x ((CString.nextLine file o s.mem).map _) = _
    rw [h1]; rfl

theorem Runs.append {a b : List Op} : ∀ {e e' e'' : Env}, Runs e a e' → Runs e' b e'' → Runs e (a ++ b) e'' := by
  induction a with
  | nil =>
    intro e e' e'' h h'
    cases h
    exact h'
  | cons op a ih =>
    intro e e' e'' h h'
    cases h with
    | cons h1 h2 => exact .cons h1 (ih h2 h')

theorem run_ok {ops : List Op} : ∀ {s : St} {e e' : Env}, Inv s e → Runs e ops e' → ∃ s', run ops s = .ok s' ∧ Inv s' e' := by
  induction ops with
  | nil =>
    intro s e e' h hr
    cases hr
    exact ⟨s, rfl, h⟩
  | cons op ops ih =>
    intro s e e' h hr
    cases hr with
    | cons hst hrest =>
      obtain ⟨s1, h1, hi1⟩ := step_ok h hst
      obtain ⟨s2, h2, hi2⟩ := ih hi1 hrest
      exact ⟨s2, by rw [run, h1]; exact h2, hi2⟩

end EdgeEval.CString
