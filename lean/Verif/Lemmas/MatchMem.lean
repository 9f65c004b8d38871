import Verif.Lemmas.CsaMem
import Verif.Lemmas.Match
import Verif.Model.MatchMem

/-! # Lemmas on the memory-level model of `match.cc`: arrays, loops, nodes and edges -/

namespace EdgeEval.MatchMem

open EdgeEval EdgeEval.CsaMem

/-! ## Arrays -/

/-- The array has the given dimensions and its cells hold `f` (`none` = uninitialised). -/
structure Arr.Is {α : Type} (a : Arr α) (d0 d1 : Nat) (f : Nat → Nat → Option α) : Prop where
  h0 : a.d0 = d0
  h1 : a.d1 = d1
  size : a.blk.size = d0 * d1
  cell : ∀ i < d0, ∀ j < d1, a.blk.cell (i * d1 + j) = f i j
  out : ∀ k, d0 * d1 ≤ k → a.blk.cell k = none

theorem idx_lt {i j d0 d1 : Nat} (hi : i < d0) (hj : j < d1) : i * d1 + j < d0 * d1 := by
  have : (i + 1) * d1 ≤ d0 * d1 := Nat.mul_le_mul_right _ hi
  rw [Nat.add_mul] at this
  omega

theorem idx_inj {i j i' j' d1 : Nat} (hj : j < d1) (hj' : j' < d1) (h : i' * d1 + j' = i * d1 + j) : i' = i ∧ j' = j := by
  have hd : 0 < d1 := by omega
  have e1 : (i' * d1 + j') / d1 = i' := by
    rw [Nat.mul_comm, Nat.mul_add_div hd, Nat.div_eq_of_lt hj', Nat.add_zero]
  have e2 : (i * d1 + j) / d1 = i := by
    rw [Nat.mul_comm, Nat.mul_add_div hd, Nat.div_eq_of_lt hj, Nat.add_zero]
  have e : i' = i := by rw [← e1, h, e2]
  subst e
  exact ⟨rfl, by omega⟩

theorem Arr.is_new (α : Type) (d0 d1 : Nat) : (Arr.new α d0 d1).Is d0 d1 fun _ _ => none :=
  ⟨rfl, rfl, rfl, fun _ _ _ _ => rfl, fun _ _ => rfl⟩

theorem Arr.Is.congr {α : Type} {a : Arr α} {d0 d1 : Nat} {f g : Nat → Nat → Option α} (h : a.Is d0 d1 f)
    (e : ∀ i < d0, ∀ j < d1, f i j = g i j) : a.Is d0 d1 g :=
  ⟨h.h0, h.h1, h.size, fun i hi j hj => (h.cell i hi j hj).trans (e i hi j hj), h.out⟩

theorem Arr.Is.rd {α : Type} {a : Arr α} {d0 d1 : Nat} {f : Nat → Nat → Option α} (h : a.Is d0 d1 f) {i j : Nat} (hi : i < d0)
    (hj : j < d1) {x : α} (e : f i j = some x) : a.rd i j = .ok x := by
  unfold Arr.rd
  rw [h.h0, h.h1, if_pos ⟨hi, hj⟩]
  exact Blk.Has.rd ⟨by rw [h.size]; exact idx_lt hi hj, (h.cell i hi j hj).trans e⟩

theorem Arr.Is.wr {α : Type} {a : Arr α} {d0 d1 : Nat} {f : Nat → Nat → Option α} (h : a.Is d0 d1 f) {i j : Nat} (hi : i < d0)
    (hj : j < d1) (x : α) : ∃ a', a.wr i j x = .ok a' ∧ a'.Is d0 d1 fun i' j' => if i' = i ∧ j' = j then some x else f i' j' := by
  unfold Arr.wr
  rw [h.h0, h.h1, if_pos ⟨hi, hj⟩, Blk.wr_eq (by rw [h.size]; exact idx_lt hi hj), ok_bind]
  refine ⟨_, rfl, rfl, rfl, h.size, ?_, ?_⟩
  · intro i' hi' j' hj'
    show (if i' * d1 + j' = i * d1 + j then some x else a.blk.cell (i' * d1 + j')) = _
    by_cases e : i' = i ∧ j' = j
    · rw [if_pos e, if_pos (by rw [e.1, e.2])]
    · rw [if_neg e, if_neg (fun h' => e (idx_inj hj hj' h')), h.cell i' hi' j' hj']
  · intro k hk
    show (if k = i * d1 + j then some x else a.blk.cell k) = _
    rw [if_neg (by have := idx_lt hi hj; omega), h.out k hk]

theorem Arr.Is.init {α : Type} {a : Arr α} {d0 d1 : Nat} {f : Nat → Nat → Option α} (h : a.Is d0 d1 f) (x : α) :
    ∃ a', a.init x = .ok a' ∧ a'.Is d0 d1 fun _ _ => some x := by
  obtain ⟨b, e, hs, hc, ho⟩ := forLoop_inv (f := fun k (b : Blk α) => b.wr k x) (cnt := d0 * d1) (lo := 0) (s := a.blk)
    (fun i b => b.size = d0 * d1 ∧ (∀ k < i, b.cell k = some x) ∧ ∀ k, d0 * d1 ≤ k → b.cell k = none)
    ⟨h.size, fun k hk => by omega, h.out⟩ (by
      intro i b _ hi ⟨p1, p2, p3⟩
      refine ⟨_, Blk.wr_eq (by omega) x, p1, fun k hk => ?_, fun k hk => ?_⟩
      · show (if k = i then some x else b.cell k) = _
        split
        · rfl
        · exact p2 k (by omega)
      · show (if k = i then some x else b.cell k) = _
        rw [if_neg (by omega), p3 k hk])
  unfold Arr.init
  rw [h.h0, h.h1, e, ok_bind]
  exact ⟨_, rfl, rfl, rfl, hs, fun i hi j hj => hc _ (by have := idx_lt hi hj; omega), ho⟩

theorem is_ofMap (h w : Nat) (b : BMap) : (ofMap h w b).Is w h fun x y => some (b y x) := by
  refine ⟨rfl, rfl, rfl, fun x hx y hy => ?_, fun k hk => if_neg (by omega)⟩
  show (if x * h + y < w * h then some (b ((x * h + y) % h) ((x * h + y) / h)) else none) = _
  have hd : 0 < h := by omega
  rw [if_pos (idx_lt hx hy), Nat.mul_comm, Nat.mul_add_mod, Nat.mod_eq_of_lt hy, Nat.mul_add_div hd, Nat.div_eq_of_lt hy,
    Nat.add_zero]

theorem need_ok {p : Prop} [Decidable p] (h : p) : need p = .ok () := if_pos h

theorem at'_ok {α : Type} {l : List α} {i : Nat} {x : α} (h : l[i]? = some x) : at' l i = .ok x := by
  unfold at'
  rw [h]

/-! ## Loops -/

theorem forLoop_foldlM {σ : Type} (f : Nat → σ → Except MErr σ) (cnt lo : Nat) (s : σ) :
    forLoop f cnt lo s = (List.range' lo cnt).foldlM (fun s i => f i s) s := by
  induction cnt generalizing lo s with
  | zero => rfl
  | succ cnt ih =>
    rw [List.range'_succ, List.foldlM_cons]
    show (f lo s >>= fun s => forLoop f cnt (lo + 1) s) = _
    congr 1
    funext t
    exact ih (lo + 1) t

theorem foldlM_flatMap {σ α β : Type} (f : σ → β → Except MErr σ) (g : α → List β) (l : List α) (s : σ) :
    (l.flatMap g).foldlM f s = l.foldlM (fun s a => (g a).foldlM f s) s := by
  induction l generalizing s with
  | nil => rfl
  | cons a l ih =>
    rw [List.flatMap_cons, List.foldlM_append, List.foldlM_cons]
    congr 1
    funext t
    exact ih t

theorem foldlM_map' {σ α β : Type} (f : σ → β → Except MErr σ) (g : α → β) (l : List α) (s : σ) :
    (l.map g).foldlM f s = l.foldlM (fun s a => f s (g a)) s := by
  induction l generalizing s with
  | nil => rfl
  | cons a l ih =>
    rw [List.map_cons, List.foldlM_cons, List.foldlM_cons]
    congr 1
    funext t
    exact ih t

/-- Two nested loops over the image, `x` outside. -/
theorem pixels_loop {σ : Type} (f : Nat → Nat → σ → Except MErr σ) (h w : Nat) (s : σ) :
    forLoop (fun x s => forLoop (fun y s => f x y s) h 0 s) w 0 s = (pixels h w).foldlM (fun s p => f p.1 p.2 s) s := by
  unfold pixels
  rw [foldlM_flatMap, forLoop_foldlM]
  simp only [List.range_eq_range']
  congr 1
  funext s x
  rw [foldlM_map', forLoop_foldlM]

/-- The other order, `y` outside. -/
def pixelsT (h w : Nat) : List Pix := (pixels w h).map fun p => (p.2, p.1)

theorem pixelsT_loop {σ : Type} (f : Nat → Nat → σ → Except MErr σ) (h w : Nat) (s : σ) :
    forLoop (fun y s => forLoop (fun x s => f y x s) w 0 s) h 0 s = (pixelsT h w).foldlM (fun s p => f p.2 p.1 s) s := by
  rw [pixels_loop, pixelsT, foldlM_map']

theorem mem_pixelsT {h w : Nat} {p : Pix} : p ∈ pixelsT h w ↔ p.1 < w ∧ p.2 < h := by
  unfold pixelsT
  rw [List.mem_map]
  constructor
  · rintro ⟨q, hq, rfl⟩
    have := mem_pixels.1 hq
    exact ⟨this.2, this.1⟩
  · rintro ⟨h1, h2⟩
    exact ⟨(p.2, p.1), mem_pixels.2 ⟨h2, h1⟩, rfl⟩

/-- Two nested loops over the window, first component outside. -/
theorem window_loop {σ : Type} (f : Int → Int → σ → Except MErr σ) (r : Nat) (s : σ) :
    forSym (fun u s => forSym (fun v s => f u v s) r s) r s = (window r).foldlM (fun s uv => f uv.1 uv.2 s) s := by
  unfold window forSym
  rw [foldlM_flatMap, forLoop_foldlM]
  simp only [List.range_eq_range']
  congr 1
  funext s x
  rw [foldlM_map']
  exact forLoop_foldlM _ _ _ _

/-- Loop invariant over a list: the first argument of `P` is the part already processed. -/
theorem foldlM_inv {σ α : Type} (P : List α → σ → Prop) {f : σ → α → Except MErr σ} (l : List α) {s : σ} (h0 : P [] s)
    (hs : ∀ pre x post s, l = pre ++ x :: post → P pre s → ∃ s', f s x = .ok s' ∧ P (pre ++ [x]) s') :
    ∃ s', l.foldlM f s = .ok s' ∧ P l s' := by
  have gen : ∀ (post pre : List α) (s : σ), l = pre ++ post → P pre s → ∃ s', post.foldlM f s = .ok s' ∧ P l s' := by
    intro post
    induction post with
    | nil =>
      intro pre s e hp
      rw [List.append_nil] at e
      exact ⟨s, rfl, e ▸ hp⟩
    | cons x post ih =>
      intro pre s e hp
      obtain ⟨s1, e1, h1⟩ := hs pre x post s e hp
      obtain ⟨s2, e2, h2⟩ := ih (pre ++ [x]) s1 (by rw [e]; simp) h1
      refine ⟨s2, ?_, h2⟩
      rw [List.foldlM_cons, e1]
      exact e2
  exact gen l [] s (by simp) h0

/-! ## Which pixels are matchable -/

theorem initMatch_ok (h w : Nat) : ∃ s, initMatch h w = .ok s ∧ s.1.Is w h (fun _ _ => some none) ∧
    s.2.Is w h fun _ _ => some none := by
  unfold initMatch
  rw [pixels_loop]
  obtain ⟨s, e, h1, h2⟩ := foldlM_inv
    (f := fun (s : Arr (Option Pix) × Arr (Option Pix)) p => do
      let a ← s.1.wr p.1 p.2 none
      let b ← s.2.wr p.1 p.2 none
      .ok (a, b))
    (fun pre s => s.1.Is w h (fun x y => if (x, y) ∈ pre then some none else none) ∧
      s.2.Is w h fun x y => if (x, y) ∈ pre then some none else none) (pixels h w)
    (s := (Arr.new _ w h, Arr.new _ w h))
    ⟨(Arr.is_new _ w h).congr fun _ _ _ _ => by simp, (Arr.is_new _ w h).congr fun _ _ _ _ => by simp⟩ (by
      intro pre p post s hl ⟨p1, p2⟩
      have hp : p.1 < w ∧ p.2 < h := mem_pixels.1 (by rw [hl]; simp)
      obtain ⟨a, ea, ha⟩ := p1.wr hp.1 hp.2 none
      obtain ⟨b, eb, hb⟩ := p2.wr hp.1 hp.2 none
      refine ⟨(a, b), by rw [ea, ok_bind, eb, ok_bind], ha.congr ?_, hb.congr ?_⟩ <;>
      · intro i _ j _
        obtain ⟨px, py⟩ := p
        by_cases e : i = px ∧ j = py
        · simp [e]
        · have : (i, j) ≠ (px, py) := by simpa using e
          simp [e])
  refine ⟨s, e, h1.congr ?_, h2.congr ?_⟩ <;>
  · intro i hi j hj
    rw [if_pos (mem_pixels.2 ⟨hi, hj⟩)]

section
variable {h w : Nat} {md2 oc2 : ℚ} {b1 b2 : BMap}

theorem targets_eq (p : Pix) : targets h w md2 p = (window (ceilSqrt md2)).filterMap fun uv => hit h w md2 p.1 p.2 uv.1 uv.2 := rfl

theorem hit_range {x1 y1 : Nat} {u v : Int} {q : Pix} (e : hit h w md2 x1 y1 u v = some q) :
    q.1 < w ∧ q.2 < h ∧ (pixDist2 (x1, y1) q : Int) = u * u + v * v := by
  unfold hit at e
  split at e
  · cases e
  split at e
  · cases e
  split at e
  · cases e
  cases e
  refine ⟨by simp only; omega, by simp only; omega, ?_⟩
  rw [pixDist2_cast]
  simp only
  rw [Int.toNat_of_nonneg (by omega), Int.toNat_of_nonneg (by omega)]
  ring

/-- The inner two loops: what one pixel of map 1 marks. -/
theorem markPixel_ok {p : Pix} (hp : p.1 < w ∧ p.2 < h) {s : Arr Bool × Arr Bool} {f1 f2 : Pix → Bool}
    (h1 : s.1.Is w h fun x y => some (f1 (x, y))) (h2 : s.2.Is w h fun x y => some (f2 (x, y))) :
    ∃ (s' : Arr Bool × Arr Bool) (g1 g2 : Pix → Bool), markPixel h w md2 (ofMap h w b1) (ofMap h w b2) p.2 p.1 s = .ok s' ∧
      s'.1.Is w h (fun x y => some (g1 (x, y))) ∧ s'.2.Is w h (fun x y => some (g2 (x, y))) ∧
      (∀ x, g1 x = true ↔ f1 x = true ∨ (x = p ∧ b1 p.2 p.1 = true ∧ ∃ q ∈ targets h w md2 p, b2 q.2 q.1 = true)) ∧
      ∀ q, g2 q = true ↔ f2 q = true ∨ (b1 p.2 p.1 = true ∧ q ∈ targets h w md2 p ∧ b2 q.2 q.1 = true) := by
  unfold markPixel
  rw [(is_ofMap h w b1).rd hp.1 hp.2 rfl, ok_bind]
  by_cases hb : b1 p.2 p.1 = true
  · rw [if_pos hb]
    rw [window_loop (fun v u s => markAt h w md2 (ofMap h w b2) p.1 p.2 u v s)]
    obtain ⟨s', e, g1, g2, i1, i2, j1, j2⟩ := foldlM_inv
      (f := fun s (vu : Int × Int) => markAt h w md2 (ofMap h w b2) p.1 p.2 vu.2 vu.1 s)
      (fun pre s => ∃ g1 g2 : Pix → Bool, s.1.Is w h (fun x y => some (g1 (x, y))) ∧ s.2.Is w h (fun x y => some (g2 (x, y))) ∧
        (∀ x, g1 x = true ↔ f1 x = true ∨ (x = p ∧ ∃ vu ∈ pre, ∃ q, hit h w md2 p.1 p.2 vu.2 vu.1 = some q ∧ b2 q.2 q.1 = true)) ∧
        ∀ q, g2 q = true ↔ f2 q = true ∨ ((∃ vu ∈ pre, hit h w md2 p.1 p.2 vu.2 vu.1 = some q) ∧ b2 q.2 q.1 = true))
      (window (ceilSqrt md2)) (s := s) ⟨f1, f2, h1, h2, by simp, by simp⟩ (by
        rintro pre ⟨v, u⟩ post s hl ⟨g1, g2, i1, i2, j1, j2⟩
        unfold markAt
        simp only
        cases eh : hit h w md2 p.1 p.2 u v with
        | none =>
          refine ⟨s, rfl, g1, g2, i1, i2, fun x => ?_, fun q => ?_⟩
          · rw [j1]; simp [eh]
          · rw [j2]; simp [eh]
        | some q0 =>
          obtain ⟨r1, r2, -⟩ := hit_range eh
          simp only
          rw [(is_ofMap h w b2).rd r1 r2 rfl, ok_bind]
          by_cases hq : b2 q0.2 q0.1 = true
          · rw [if_pos hq]
            obtain ⟨a, ea, ha⟩ := i1.wr hp.1 hp.2 true
            obtain ⟨b, eb, hb'⟩ := i2.wr r1 r2 true
            refine ⟨(a, b), by rw [ea, ok_bind, eb, ok_bind], fun x => if x = p then true else g1 x,
              fun x => if x = q0 then true else g2 x, ha.congr ?_, hb'.congr ?_, ?_, ?_⟩
            · intro i _ j _
              obtain ⟨px, py⟩ := p
              simp only [Prod.mk.injEq]
              split <;> rfl
            · intro i _ j _
              obtain ⟨px, py⟩ := q0
              simp only [Prod.mk.injEq]
              split <;> rfl
            · intro x
              by_cases hx : x = p
              · subst hx
                simp only [if_true, true_iff]
                exact .inr ⟨trivial, (v, u), by simp, q0, eh, hq⟩
              · simp only [if_neg hx]
                rw [j1]
                simp [hx]
            · intro q
              by_cases hx : q = q0
              · subst hx
                simp only [if_true, true_iff]
                exact .inr ⟨⟨(v, u), by simp, eh⟩, hq⟩
              · simp only [if_neg hx]
                rw [j2]
                have : ¬ q0 = q := fun e => hx e.symm
                simp [eh, this]
          · rw [if_neg hq]
            refine ⟨s, rfl, g1, g2, i1, i2, fun x => ?_, fun q => ?_⟩
            · rw [j1]
              constructor
              · rintro (h | ⟨hx, vu, m, r⟩)
                · exact .inl h
                · exact .inr ⟨hx, vu, by simp [m], r⟩
              · rintro (h | ⟨hx, vu, m, q, e, hb⟩)
                · exact .inl h
                · rcases List.mem_append.1 m with m | m
                  · exact .inr ⟨hx, vu, m, q, e, hb⟩
                  · rw [List.mem_singleton] at m
                    subst m
                    simp only at e
                    rw [eh] at e
                    cases e
                    exact absurd hb hq
            · rw [j2]
              constructor
              · rintro (h | ⟨⟨vu, m, e⟩, hb⟩)
                · exact .inl h
                · exact .inr ⟨⟨vu, by simp [m], e⟩, hb⟩
              · rintro (h | ⟨⟨vu, m, e⟩, hb⟩)
                · exact .inl h
                · rcases List.mem_append.1 m with m | m
                  · exact .inr ⟨⟨vu, m, e⟩, hb⟩
                  · rw [List.mem_singleton] at m
                    subst m
                    simp only at e
                    rw [eh] at e
                    cases e
                    exact absurd hb hq)
    have swap : ∀ q, (∃ vu ∈ window (ceilSqrt md2), hit h w md2 p.1 p.2 vu.2 vu.1 = some q) ↔ q ∈ targets h w md2 p := by
      intro q
      rw [targets_eq, List.mem_filterMap]
      constructor
      · rintro ⟨⟨v, u⟩, m, e⟩
        refine ⟨(u, v), ?_, e⟩
        have := mem_window.1 m
        exact mem_window.2 ⟨this.2, this.1⟩
      · rintro ⟨⟨u, v⟩, m, e⟩
        refine ⟨(v, u), ?_, e⟩
        have := mem_window.1 m
        exact mem_window.2 ⟨this.2, this.1⟩
    refine ⟨s', g1, g2, e, i1, i2, fun x => ?_, fun q => ?_⟩
    · rw [j1]
      constructor
      · rintro (h | ⟨rfl, vu, m, q, e, hq⟩)
        · exact .inl h
        · exact .inr ⟨rfl, hb, q, (swap q).1 ⟨vu, m, e⟩, hq⟩
      · rintro (h | ⟨rfl, -, q, m, hq⟩)
        · exact .inl h
        · obtain ⟨vu, m', e⟩ := (swap q).2 m
          exact .inr ⟨rfl, vu, m', q, e, hq⟩
    · rw [j2, swap]
      simp [hb]
  · rw [if_neg hb]
    exact ⟨s, f1, f2, rfl, h1, h2, fun x => by simp [hb], fun x => by simp [hb]⟩

theorem mark_ok : ∃ s, mark h w md2 (ofMap h w b1) (ofMap h w b2) = .ok s ∧
    s.1.Is w h (fun x y => some (matchable1 h w md2 b1 b2 (x, y))) ∧
    s.2.Is w h (fun x y => some (matchable2 h w md2 b1 b2 (x, y))) := by
  unfold mark
  obtain ⟨a, ea, ha⟩ := (Arr.is_new Bool w h).init false
  rw [ea, ok_bind, ok_bind, pixelsT_loop]
  obtain ⟨s, e, g1, g2, i1, i2, j1, j2⟩ := foldlM_inv
    (f := fun s (p : Pix) => markPixel h w md2 (ofMap h w b1) (ofMap h w b2) p.2 p.1 s)
    (fun pre s => ∃ g1 g2 : Pix → Bool, s.1.Is w h (fun x y => some (g1 (x, y))) ∧ s.2.Is w h (fun x y => some (g2 (x, y))) ∧
      (∀ x, g1 x = true ↔ x ∈ pre ∧ b1 x.2 x.1 = true ∧ ∃ q ∈ targets h w md2 x, b2 q.2 q.1 = true) ∧
      ∀ q, g2 q = true ↔ ∃ p ∈ pre, b1 p.2 p.1 = true ∧ q ∈ targets h w md2 p ∧ b2 q.2 q.1 = true)
    (pixelsT h w) (s := (a, a)) ⟨fun _ => false, fun _ => false, ha, ha, by simp, by simp⟩ (by
      intro pre p post s hl ⟨g1, g2, i1, i2, j1, j2⟩
      have hp : p.1 < w ∧ p.2 < h := mem_pixelsT.1 (by rw [hl]; simp)
      obtain ⟨s', k1, k2, e, l1, l2, m1, m2⟩ := markPixel_ok (md2 := md2) (b1 := b1) (b2 := b2) hp i1 i2
      refine ⟨s', e, k1, k2, l1, l2, fun x => ?_, fun q => ?_⟩
      · rw [m1, j1]
        constructor
        · rintro (⟨a, b⟩ | ⟨rfl, b⟩)
          · exact ⟨by simp [a], b⟩
          · exact ⟨by simp, b⟩
        · rintro ⟨a, b⟩
          rcases List.mem_append.1 a with a | a
          · exact .inl ⟨a, b⟩
          · rw [List.mem_singleton] at a
            subst a
            exact .inr ⟨rfl, b⟩
      · rw [m2, j2]
        constructor
        · rintro (⟨p', a, b⟩ | b)
          · exact ⟨p', by simp [a], b⟩
          · exact ⟨p, by simp, b⟩
        · rintro ⟨p', a, b⟩
          rcases List.mem_append.1 a with a | a
          · exact .inl ⟨p', a, b⟩
          · rw [List.mem_singleton] at a
            subst a
            exact .inr b)
  refine ⟨s, e, i1.congr ?_, i2.congr ?_⟩
  · intro x hx y hy
    congr 1
    rw [Bool.eq_iff_iff, j1]
    unfold matchable1
    simp only [Bool.and_eq_true, List.any_eq_true]
    exact ⟨fun h => h.2, fun h => ⟨mem_pixelsT.2 ⟨hx, hy⟩, h⟩⟩
  · intro x hx y hy
    congr 1
    rw [Bool.eq_iff_iff, j2]
    unfold matchable2
    simp only [Bool.and_eq_true, List.any_eq_true, beq_iff_eq]
    constructor
    · rintro ⟨p, a, b, c, d⟩
      exact ⟨p, mem_pixels.2 (mem_pixelsT.1 a), b, (x, y), c, d, rfl⟩
    · rintro ⟨p, a, b, q, c, d, rfl⟩
      exact ⟨p, mem_pixelsT.2 (mem_pixels.1 a), b, c, d⟩

end

end EdgeEval.MatchMem
