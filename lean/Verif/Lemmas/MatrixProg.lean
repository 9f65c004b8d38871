import Verif.Lemmas.MatrixMemOps
import Verif.Model.MatrixProg

/-!
# The programs of `Model/MatrixProg.lean` on values
-/

namespace EdgeEval.MatrixMem

open EdgeEval EdgeEval.Spec EdgeEval.Nms

variable {α β γ : Type} [Zero α] {e : MatEnv α}

theorem eval_bind (P : Prog α β) (f : β → Prog α γ) : ∀ e : MatEnv α, eval (P.bind f) e =
    match eval P e with
    | .ok (b, e') => eval (f b) e'
    | .error w => .error w := by
  induction P with
  | ret b => intro e; rfl
  | abort => intro e; rfl
  | ctorDefault v k ih =>
    intro e
    rw [Prog.bind, eval, eval]
    cases born e v ⟨0, 0, fun _ _ => none⟩ with
    | error w => rfl
    | ok e' => exact ih e'
  | ctorSized v r c k ih =>
    intro e
    rw [Prog.bind, eval, eval]
    cases born e v ⟨r.toNat, c.toNat, fun _ _ => some 0⟩ with
    | error w => rfl
    | ok e' => exact ih e'
  | ctorCopy v w k ih =>
    intro e
    rw [Prog.bind, eval, eval]
    cases the e w with
    | error w => rfl
    | ok B =>
      dsimp only [bind, Except.bind]
      cases born e v B with
      | error w => rfl
      | ok e' => exact ih e'
  | assign v w k ih =>
    intro e
    rw [Prog.bind, eval, eval]
    cases the e v with
    | error w => rfl
    | ok A =>
      cases the e w with
      | error w => rfl
      | ok B =>
        dsimp only [bind, Except.bind]
        by_cases hvw : v = w
        · rw [if_pos hvw, if_pos hvw]
        · rw [if_neg hvw, if_neg hvw]
          exact ih _
  | dtor v k ih =>
    intro e
    rw [Prog.bind, eval, eval]
    cases the e v with
    | error w => rfl
    | ok A => exact ih _
  | size v k ih =>
    intro e
    rw [Prog.bind, eval, eval]
    cases the e v with
    | error w => rfl
    | ok A => exact ih _ _ _
  | get v i j k ih =>
    intro e
    rw [Prog.bind, eval, eval]
    cases the e v with
    | error w => rfl
    | ok A =>
      dsimp only [bind, Except.bind]
      split
      · cases A.cell i.toNat j.toNat with
        | none => rfl
        | some x => exact ih _ _
      · rfl
  | put v i j x k ih =>
    intro e
    rw [Prog.bind, eval, eval]
    cases the e v with
    | error w => rfl
    | ok A =>
      dsimp only [bind, Except.bind]
      split
      · exact ih _
      · rfl
  | arrayOf v im k ih =>
    intro e
    rw [Prog.bind, eval, eval]
    cases born e v (ofImg im) with
    | error w => rfl
    | ok e' => exact ih e'
  | copyView out v a k ih =>
    intro e
    rw [Prog.bind, eval, eval]
    cases the e v with
    | error w => rfl
    | ok M =>
      cases the e a with
      | error w => rfl
      | ok A =>
        dsimp only [bind, Except.bind]
        by_cases h0 : A.rows = 0 ∨ A.cols = 0
        · rw [if_pos h0, if_pos h0]
          exact ih _ _
        · rw [if_neg h0, if_neg h0]
          by_cases h1 : v ≠ a ∧ M.rows = A.rows ∧ M.cols = A.cols
          · rw [if_pos h1, if_pos h1]
            by_cases h2 : (if out then M else A).Full
            · rw [if_pos h2, if_pos h2]
              exact ih _ _
            · rw [if_neg h2, if_neg h2]
          · rw [if_neg h1, if_neg h1]

theorem eval_bind_ok {P : Prog α β} {f : β → Prog α γ} {e e' : MatEnv α} {b : β} (h : eval P e = .ok (b, e')) :
    eval (P.bind f) e = eval (f b) e' := by
  rw [eval_bind, h]

theorem eval_bind_err {P : Prog α β} {f : β → Prog α γ} {e : MatEnv α} {w : Why} (h : eval P e = .error w) :
    eval (P.bind f) e = .error w := by
  rw [eval_bind, h]

/-- The matrix value with the elements of `o`. -/
def full (h w : Nat) (o : Nat → Nat → α) : MatVal α := ofImg ⟨h, w, o⟩

omit [Zero α] in
theorem full_full (h w : Nat) (o : Nat → Nat → α) : (full h w o).Full := fun _ _ _ _ => rfl

theorem eval_get_in {v : Nat} {k : α → Prog α β} {h w : Nat} {o : Nat → Nat → α} (hv : e v = some (full h w o)) {i j : Int}
    (hi : 0 ≤ i ∧ i < h) (hj : 0 ≤ j ∧ j < w) : eval (.get v i j k) e = eval (k (o i.toNat j.toNat)) e := by
  rw [eval]
  unfold the
  rw [hv]
  dsimp only [bind, Except.bind]
  rw [if_pos ⟨hi.1, hi.2, hj.1, hj.2⟩]
  rfl

theorem eval_get_out {v : Nat} {k : α → Prog α β} {h w : Nat} {o : Nat → Nat → α} (hv : e v = some (full h w o)) {i j : Int}
    (hh : ¬ (0 ≤ i ∧ i < h ∧ 0 ≤ j ∧ j < w)) : eval (.get v i j k) e = .error .exception := by
  rw [eval]
  unfold the
  rw [hv]
  dsimp only [bind, Except.bind]
  rw [if_neg (show ¬ (full h w o).inRange i j from hh)]

theorem eval_put_in {v : Nat} {k : Prog α β} {h w : Nat} {o : Nat → Nat → α} (hv : e v = some (full h w o)) {i j : Int} (x : α)
    (hi : 0 ≤ i ∧ i < h) (hj : 0 ≤ j ∧ j < w) : eval (.put v i j x k) e =
      eval k (upd e v (some (full h w fun a b => if a = i.toNat ∧ b = j.toNat then x else o a b))) := by
  rw [eval]
  unfold the
  rw [hv]
  dsimp only [bind, Except.bind]
  rw [if_pos ⟨hi.1, hi.2, hj.1, hj.2⟩]
  congr 3
  unfold full ofImg
  dsimp only
  congr 1
  funext a b
  split <;> rfl

theorem eval_ret (b : β) : eval (.ret b : Prog α β) e = .ok (b, e) := rfl

theorem eval_size {v : Nat} {k : Nat → Nat → Prog α β} {A : MatVal α} (hv : e v = some A) :
    eval (.size v k) e = eval (k A.rows A.cols) e := by
  rw [eval]
  unfold the
  rw [hv]
  rfl

theorem eval_ctorDefault {v : Nat} {k : Prog α β} (hv : e v = none) :
    eval (.ctorDefault v k) e = eval k (upd e v (some ⟨0, 0, fun _ _ => none⟩)) := by
  rw [eval]
  unfold born
  rw [hv]
  rfl

theorem eval_arrayOf {v : Nat} {im : Img α} {k : Prog α β} (hv : e v = none) :
    eval (.arrayOf v im k) e = eval k (upd e v (some (ofImg im))) := by
  rw [eval]
  unfold born
  rw [hv]
  rfl

theorem eval_assign {v w : Nat} {k : Prog α β} {A B : MatVal α} (hvw : v ≠ w) (hv : e v = some A) (hw : e w = some B) :
    eval (.assign v w k) e = eval k (upd e v (some B)) := by
  rw [eval]
  unfold the
  rw [hv, hw]
  dsimp only [bind, Except.bind]
  rw [if_neg hvw]

theorem eval_dtor {v : Nat} {k : Prog α β} {A : MatVal α} (hv : e v = some A) : eval (.dtor v k) e = eval k (upd e v none) := by
  rw [eval]
  unfold the
  rw [hv]
  rfl

omit [Zero α] in
theorem upd_same (e : MatEnv α) (v : Nat) : upd e v (e v) = e := by
  funext w
  unfold upd
  split
  · rename_i h; rw [h]
  · rfl

omit [Zero α] in
theorem upd_comm (e : MatEnv α) {v w : Nat} (h : v ≠ w) (x y : Option (MatVal α)) : upd (upd e v x) w y = upd (upd e w y) v x := by
  funext u
  unfold upd
  by_cases h1 : u = w
  · subst h1
    rw [if_pos rfl, if_neg (Ne.symm h), if_pos rfl]
  · rw [if_neg h1, if_neg h1]

theorem eval_assignNew {v t : Nat} {rows cols : Nat} {k : Prog α β} {A : MatVal α} (hv : e v = some A) (ht : e t = none) :
    eval (assignNew v t rows cols k) e = eval k (upd e v (some (full rows cols fun _ _ => 0))) := by
  have hvt : v ≠ t := by rintro rfl; rw [ht] at hv; cases hv
  unfold assignNew
  rw [eval]
  unfold born
  rw [ht]
  change eval (.assign v t (.dtor t k)) (upd e t _) = _
  rw [eval_assign hvt (by rw [upd_ne _ _ hvt]; exact hv) (upd_self _ _ _), eval_dtor (by rw [upd_ne _ _ (Ne.symm hvt)]; exact upd_self _ _ _)]
  rw [upd_comm _ hvt, upd_upd]
  rw [show upd e t none = e by rw [← ht]; exact upd_same e t]
  rfl

theorem eval_copyView_empty {out : Bool} {v a : Nat} {k : Bool → Prog α β} {M A : MatVal α} (hv : e v = some M) (ha : e a = some A)
    (h0 : A.rows = 0 ∨ A.cols = 0) : eval (.copyView out v a k) e = eval (k false) e := by
  rw [eval]
  unfold the
  rw [hv, ha]
  dsimp only [bind, Except.bind]
  rw [if_pos h0]

theorem eval_copyView {out : Bool} {v a : Nat} {k : Bool → Prog α β} {h w : Nat} {f g : Nat → Nat → α} (hv : e v = some (full h w f))
    (ha : e a = some (full h w g)) (h0 : ¬ (h = 0 ∨ w = 0)) (hva : v ≠ a) :
    eval (.copyView out v a k) e =
      eval (k true) (if out then upd e a (some (full h w f)) else upd e v (some (full h w g))) := by
  rw [eval]
  unfold the
  rw [hv, ha]
  dsimp only [bind, Except.bind]
  rw [if_neg (show ¬ ((full h w g).rows = 0 ∨ (full h w g).cols = 0) from h0), if_pos ⟨hva, rfl, rfl⟩]
  cases out with
  | true =>
    simp only [if_true]
    rw [if_pos (full_full _ _ _)]
  | false =>
    simp only [Bool.false_eq_true, if_false]
    rw [if_pos (full_full _ _ _)]

/-! ## nms -/

section
variable {E : MatEnv ℝ}

theorem eval_get_readAt {v : Nat} {k : ℝ → Prog ℝ β} {I : Img ℝ} (hv : E v = some (ofImg I)) (i j : Int) :
    eval (.get v i j k) E = match readAt I i j with
      | .ok x => eval (k x) E
      | .error _ => .error .exception := by
  unfold readAt
  by_cases h : 0 ≤ i ∧ i < I.rows ∧ 0 ≤ j ∧ j < I.cols
  · rw [if_pos h]
    exact eval_get_in (o := I.at_) hv ⟨h.1, h.2.1⟩ ⟨h.2.2.1, h.2.2.2⟩
  · rw [if_neg h]
    exact eval_get_out (o := I.at_) hv h

theorem eval_interpP {I : Img ℝ} {v : Nat} (hv : E v = some (ofImg I)) (h w : ℤ) (x y : ℝ) :
    eval (interpP v h w x y) E = match interp I h w x y with
      | .ok z => .ok (z, E)
      | .error _ => .error .exception := by
  unfold interpP interp
  dsimp only
  rw [eval_get_readAt hv]
  cases readAt I (cInt (clampCoord h y)) (cInt (clampCoord w x)) with
  | error er => rfl
  | ok a =>
    dsimp only
    rw [eval_get_readAt hv]
    cases readAt I (cInt (clampCoord h y)) (cInt (clampCoord w x) + 1) with
    | error er => rfl
    | ok b =>
      dsimp only
      rw [eval_get_readAt hv]
      cases readAt I (cInt (clampCoord h y) + 1) (cInt (clampCoord w x)) with
      | error er => rfl
      | ok c =>
        dsimp only
        rw [eval_get_readAt hv]
        cases readAt I (cInt (clampCoord h y) + 1) (cInt (clampCoord w x) + 1) with
        | error er => rfl
        | ok d => rfl

theorem eval_suppressP {I : Img ℝ} {out edge : Nat} (hI : E edge = some (ofImg I)) {o : Nat → Nat → ℝ}
    (ho : E out = some (full I.rows I.cols o)) {ev c s : ℝ} {x y : Nat} (hy : y < I.rows) (hx : x < I.cols) (l : List ℤ) :
    eval (suppressP out edge I.rows I.cols ev c s x y l) E = match suppressLoop I ev c s x y l with
      | .ok b => .ok ((), if b then upd E out (some (full I.rows I.cols (setCell o y x 0))) else E)
      | .error _ => .error .exception := by
  induction l with
  | nil => rfl
  | cons d ds ih =>
    unfold suppressP suppressLoop
    by_cases hd : d ≠ 0
    · rw [if_pos hd, if_pos hd, eval_bind, eval_interpP hI]
      push_cast
      cases interp I I.rows I.cols (↑x + ↑d * c) (↑y + ↑d * s) with
      | error er => rfl
      | ok e0 =>
        dsimp only
        by_cases he : ev < e0
        · rw [if_pos he, if_pos he, eval_put_in ho _ (by omega) (by omega)]
          rfl
        · rw [if_neg he, if_neg he]
          exact ih
    · rw [if_neg hd, if_neg hd]
      exact ih

theorem setCell_setCell (o : Nat → Nat → ℝ) (y x : Nat) (a b : ℝ) : setCell (setCell o y x a) y x b = setCell o y x b := by
  funext i j
  unfold setCell
  split <;> rfl

theorem eval_pixelP {I O : Img ℝ} {out edge ori : Nat} (h1 : out ≠ edge) (h2 : out ≠ ori) (hI : E edge = some (ofImg I))
    (hO : E ori = some (ofImg O)) (hr : O.rows = I.rows) (hc : O.cols = I.cols) {o : Nat → Nat → ℝ}
    (ho : E out = some (full I.rows I.cols o)) (r : ℤ) (m : ℝ) {x y : Nat} (hy : y < I.rows) (hx : x < I.cols) :
    eval (pixelP out edge ori I.rows I.cols r m x y) E = match nmsPixel I O r m y x with
      | .ok v => .ok ((), upd E out (some (full I.rows I.cols (setCell o y x v))))
      | .error _ => .error .exception := by
  unfold pixelP nmsPixel
  rw [eval_get_in (o := I.at_) hI (by omega) (by omega), eval_put_in ho _ (by omega) (by omega)]
  rw [Int.toNat_natCast, Int.toNat_natCast]
  set E1 := upd E out (some (full I.rows I.cols (setCell o y x (I.at_ y x)))) with hE1
  change eval _ E1 = _
  by_cases he : I.at_ y x = 0
  · rw [if_pos he, if_pos he]
    rfl
  · rw [if_neg he, if_neg he]
    have hO1 : E1 ori = some (ofImg O) := by rw [hE1, upd_ne _ _ (Ne.symm h2)]; exact hO
    have hI1 : E1 edge = some (ofImg I) := by rw [hE1, upd_ne _ _ (Ne.symm h1)]; exact hI
    rw [eval_get_in (o := O.at_) hO1 (by omega) (by omega), eval_get_in (o := O.at_) hO1 (by omega) (by omega)]
    rw [Int.toNat_natCast, Int.toNat_natCast]
    rw [eval_suppressP (o := setCell o y x (I.at_ y x)) hI1 (upd_self _ _ _) hy hx]
    cases suppressLoop I (I.at_ y x * m) (Real.cos (O.at_ y x)) (Real.sin (O.at_ y x)) x y (offsets r) with
    | error er => rfl
    | ok b =>
      cases b with
      | true =>
        simp only [if_true]
        rw [hE1, upd_upd, setCell_setCell]
      | false => rfl

theorem eval_firstPass {I O : Img ℝ} {out edge ori : Nat} (h1 : out ≠ edge) (h2 : out ≠ ori) (hI : E edge = some (ofImg I))
    (hO : E ori = some (ofImg O)) (hr : O.rows = I.rows) (hc : O.cols = I.cols) (r : ℤ) (m : ℝ) (l : List (Nat × Nat))
    (hl : ∀ p ∈ l, p.1 < I.cols ∧ p.2 < I.rows) : ∀ o : Nat → Nat → ℝ,
    eval (each l fun p => pixelP out edge ori I.rows I.cols r m p.1 p.2) (upd E out (some (full I.rows I.cols o))) =
      match firstPass I O r m l o with
      | .ok o' => .ok ((), upd E out (some (full I.rows I.cols o')))
      | .error _ => .error .exception := by
  induction l with
  | nil => intro o; rfl
  | cons p ps ih =>
    intro o
    unfold each firstPass
    obtain ⟨hx, hy⟩ := hl p (by simp)
    rw [eval_bind, eval_pixelP (o := o) h1 h2 (by rw [upd_ne _ _ (Ne.symm h1)]; exact hI) (by rw [upd_ne _ _ (Ne.symm h2)]; exact hO) hr hc
      (upd_self _ _ _) r m hy hx]
    cases nmsPixel I O r m p.2 p.1 with
    | error er => rfl
    | ok v =>
      dsimp only
      rw [upd_upd]
      exact ih (fun q hq => hl q (List.mem_cons_of_mem _ hq)) _

theorem eval_mulP {out h w : Nat} {o : Nat → Nat → ℝ} (ho : E out = some (full h w o)) {i j : ℤ} (hi : 0 ≤ i ∧ i < h)
    (hj : 0 ≤ j ∧ j < w) (f : ℝ) (k : Prog ℝ Unit) :
    eval (mulP out i j f k) E = eval k (upd E out (some (full h w (mulCell o i.toNat j.toNat f)))) := by
  unfold mulP
  rw [eval_get_in ho hi hj, eval_put_in ho _ hi hj]
  rfl

/-- A pass that multiplies two cells for each pair. -/
theorem eval_damp {out h w : Nat} (f : Nat × Nat → ℝ) (a b : Nat × Nat → ℤ × ℤ) (l : List (Nat × Nat))
    (ha : ∀ p ∈ l, (0 ≤ (a p).1 ∧ (a p).1 < h) ∧ 0 ≤ (a p).2 ∧ (a p).2 < w)
    (hb : ∀ p ∈ l, (0 ≤ (b p).1 ∧ (b p).1 < h) ∧ 0 ≤ (b p).2 ∧ (b p).2 < w) : ∀ o : Nat → Nat → ℝ,
    eval (each l fun p => mulP out (a p).1 (a p).2 (f p) <| mulP out (b p).1 (b p).2 (f p) <| .ret ()) (upd E out (some (full h w o))) =
      .ok ((), upd E out (some (full h w (l.foldl (fun o p => mulCell (mulCell o (a p).1.toNat (a p).2.toNat (f p)) (b p).1.toNat (b p).2.toNat (f p)) o)))) := by
  induction l with
  | nil => intro o; rfl
  | cons p ps ih =>
    intro o
    unfold each
    rw [eval_bind, eval_mulP (o := o) (upd_self _ _ _) (ha p (by simp)).1 (ha p (by simp)).2, upd_upd,
      eval_mulP (upd_self _ _ _) (hb p (by simp)).1 (hb p (by simp)).2, upd_upd]
    exact ih (fun q hq => ha q (List.mem_cons_of_mem _ hq)) (fun q hq => hb q (List.mem_cons_of_mem _ hq)) _

theorem mem_loop2' {a b : Nat} {p : Nat × Nat} (h : p ∈ loop2 a b) : p.1 < a ∧ p.2 < b := by
  unfold loop2 at h
  rw [List.mem_flatMap] at h
  obtain ⟨x, hx, hp⟩ := h
  rw [List.mem_map] at hp
  obtain ⟨y, hy, rfl⟩ := hp
  exact ⟨List.mem_range.1 hx, List.mem_range.1 hy⟩

theorem clampS_le (h w : Nat) (s : ℤ) : clampS h w s ≤ w / 2 ∧ clampS h w s ≤ h / 2 := by
  unfold clampS
  dsimp only
  split <;> split <;> omega

theorem clampS_margin (h w : Nat) (s : ℤ) : (clampS h w s).toNat = margin h w s := by
  unfold clampS margin
  dsimp only
  split <;> split <;> omega

theorem loop2_zero_left (b : Nat) : loop2 0 b = [] := rfl

theorem loop2_zero_right (a : Nat) : loop2 a 0 = [] := by
  unfold loop2
  simp

theorem eval_benmsP {I O : Img ℝ} {t out edge ori : Nat} (h1 : out ≠ edge) (h2 : out ≠ ori) (ht : E t = none) {A : MatVal ℝ}
    (ho : E out = some A) (hI : E edge = some (ofImg I)) (hO : E ori = some (ofImg O)) (hr : O.rows = I.rows) (hc : O.cols = I.cols)
    (r s : ℤ) (m : ℝ) :
    eval (benmsP t out edge ori r s m) E = match benms I O r s m with
      | .ok im => .ok ((), upd E out (some (ofImg im)))
      | .error _ => .error .exception := by
  unfold benmsP benms
  rw [eval_size hI, eval_size hO]
  rw [if_pos (by exact ⟨hc.symm, hr.symm⟩)]
  have er : (ofImg I).rows = I.rows := rfl
  have ec : (ofImg I).cols = I.cols := rfl
  simp only [er, ec]
  rw [eval_assignNew ho ht, eval_bind]
  rw [eval_firstPass h1 h2 hI hO hr hc r m _ (fun p hp => mem_loop2' hp)]
  cases firstPass I O r m (loop2 I.cols I.rows) (fun _ _ => 0) with
  | error er => rfl
  | ok o =>
    dsimp only
    obtain ⟨c1, c2⟩ := clampS_le I.rows I.cols s
    have cm := clampS_margin I.rows I.cols s
    change eval ((each (loop2 (clampS I.rows I.cols s).toNat I.rows) fun p =>
      mulP out (((p.2 : ℤ), (p.1 : ℤ)) : ℤ × ℤ).1 (((p.2 : ℤ), (p.1 : ℤ)) : ℤ × ℤ).2 ((p.1 : ℝ) / clampS I.rows I.cols s) <|
      mulP out (((p.2 : ℤ), ((I.cols : ℤ) - 1 - p.1)) : ℤ × ℤ).1 (((p.2 : ℤ), ((I.cols : ℤ) - 1 - p.1)) : ℤ × ℤ).2
        ((p.1 : ℝ) / clampS I.rows I.cols s) <| .ret ()).bind _) _ = _
    rw [eval_bind, eval_damp (fun p => (p.1 : ℝ) / clampS I.rows I.cols s) (fun p => (p.2, p.1)) (fun p => (p.2, (I.cols : ℤ) - 1 - p.1))]
    · dsimp only
      change eval (each (loop2 I.cols (clampS I.rows I.cols s).toNat) fun p =>
        mulP out (((p.2 : ℤ), (p.1 : ℤ)) : ℤ × ℤ).1 (((p.2 : ℤ), (p.1 : ℤ)) : ℤ × ℤ).2 ((p.2 : ℝ) / clampS I.rows I.cols s) <|
        mulP out ((((I.rows : ℤ) - 1 - p.2), (p.1 : ℤ)) : ℤ × ℤ).1 ((((I.rows : ℤ) - 1 - p.2), (p.1 : ℤ)) : ℤ × ℤ).2
          ((p.2 : ℝ) / clampS I.rows I.cols s) <| .ret ()) _ = _
      rw [eval_damp (fun p => (p.2 : ℝ) / clampS I.rows I.cols s) (fun p => (p.2, p.1)) (fun p => ((I.rows : ℤ) - 1 - p.2, p.1))]
      · congr 5
        unfold dampRows dampCols
        rw [cm]
        by_cases hm : margin I.rows I.cols s = 0
        · rw [hm, loop2_zero_left, loop2_zero_right]
          rfl
        · have hs : clampS I.rows I.cols s = (margin I.rows I.cols s : ℤ) := by omega
          rw [hs]
          have e1 : ∀ n k : Nat, ((n : ℤ) - 1 - k).toNat = n - 1 - k := by intro n k; omega
          simp only [e1, Int.toNat_natCast, Int.cast_natCast]
      · intro p hp
        obtain ⟨a1, a2⟩ := mem_loop2' hp
        dsimp only
        omega
      · intro p hp
        obtain ⟨a1, a2⟩ := mem_loop2' hp
        dsimp only
        omega
    · intro p hp
      obtain ⟨a1, a2⟩ := mem_loop2' hp
      dsimp only
      omega
    · intro p hp
      obtain ⟨a1, a2⟩ := mem_loop2' hp
      dsimp only
      omega

theorem interp_err {I : Img ℝ} {h w : ℤ} {x y : ℝ} {er : PyErr} (hh : interp I h w x y = .error er) : er = .terminated := by
  unfold interp at hh
  dsimp only at hh
  split at hh
  · cases hh
  · cases hh
    rfl

theorem suppressLoop_err {I : Img ℝ} {e c s : ℝ} {x y : Nat} {er : PyErr} : ∀ {l : List ℤ}, suppressLoop I e c s x y l = .error er →
    er = .terminated
  | [], h => by cases h
  | d :: ds, h => by
    unfold suppressLoop at h
    split at h
    · split at h
      · rename_i hi
        cases h
        exact interp_err hi
      · split at h
        · cases h
        · exact suppressLoop_err h
    · exact suppressLoop_err h

theorem nmsPixel_err {I O : Img ℝ} {r : ℤ} {m : ℝ} {y x : Nat} {er : PyErr} (h : nmsPixel I O r m y x = .error er) : er = .terminated := by
  unfold nmsPixel at h
  dsimp only at h
  split at h
  · cases h
  · split at h
    · rename_i hs
      cases h
      exact suppressLoop_err hs
    · cases h

theorem firstPass_err {I O : Img ℝ} {r : ℤ} {m : ℝ} {er : PyErr} : ∀ {l : List (Nat × Nat)} {o : Nat → Nat → ℝ},
    firstPass I O r m l o = .error er → er = .terminated
  | [], o, h => by cases h
  | p :: ps, o, h => by
    unfold firstPass at h
    split at h
    · rename_i hs
      cases h
      exact nmsPixel_err hs
    · exact firstPass_err h

theorem benms_err {I O : Img ℝ} {r s : ℤ} {m : ℝ} {er : PyErr} (h : benms I O r s m = .error er) : er = .terminated := by
  unfold benms at h
  split at h
  · rename_i hs
    cases h
    exact firstPass_err hs
  · cases h

theorem eval_dtor4 {E : MatEnv α} {a b c d : Nat} {k : Prog α β} {A B C D : MatVal α} (ha : E a = some A) (hb : E b = some B)
    (hc : E c = some C) (hd : E d = some D) (h : [a, b, c, d].Nodup) :
    eval (dtor4 a b c d k) E = eval k (upd (upd (upd (upd E d none) c none) b none) a none) := by
  simp only [List.nodup_cons, List.mem_cons, List.not_mem_nil, or_false, not_or] at h
  obtain ⟨⟨h1, h2, h3⟩, ⟨h4, h5⟩, h6, -⟩ := h
  unfold dtor4
  rw [eval_dtor hd, eval_dtor (A := C) (by rw [upd_ne _ _ h6]; exact hc),
    eval_dtor (A := B) (by rw [upd_ne _ _ h4, upd_ne _ _ h5]; exact hb),
    eval_dtor (A := A) (by rw [upd_ne _ _ h1, upd_ne _ _ h2, upd_ne _ _ h3]; exact ha)]

/-- The environment in which only the output array is alive. -/
def onlyOut (im : Img ℝ) : MatEnv ℝ := upd (fun _ => none) vOut (some (ofImg im))

theorem eval_nmsP (edge ori : Img ℝ) (r s : ℤ) (m : ℝ) :
    eval (nmsP edge ori r s m) (fun _ => none) = match nms edge ori r s m with
      | .ok im => .ok (true, onlyOut im)
      | .error .valueError => .ok (false, fun _ => none)
      | .error _ => .error .exception := by
  unfold nmsP nms
  by_cases h1 : edge.rows ≠ ori.rows ∨ edge.cols ≠ ori.cols
  · rw [if_pos h1, if_pos h1]
    rfl
  · rw [if_neg h1, if_neg h1]
    push Not at h1
    obtain ⟨hr, hc⟩ := h1
    rw [eval_arrayOf rfl, eval_arrayOf rfl, eval_arrayOf rfl, eval_bind]
    unfold nmsCy
    rw [eval_size (A := ofImg edge) rfl]
    have er : (ofImg edge).rows = edge.rows := rfl
    have ec : (ofImg edge).cols = edge.cols := rfl
    rw [er, ec, eval_ctorDefault rfl, eval_ctorDefault rfl, eval_ctorDefault rfl, eval_ctorDefault rfl,
      eval_assignNew (A := ⟨0, 0, fun _ _ => none⟩) rfl rfl, eval_assign (A := ⟨0, 0, fun _ _ => none⟩) (B := full edge.rows edge.cols fun _ _ => 0) (by decide) rfl rfl,
      eval_assignNew (A := full edge.rows edge.cols fun _ _ => 0) rfl rfl,
      eval_assign (A := ⟨0, 0, fun _ _ => none⟩) (B := full edge.rows edge.cols fun _ _ => 0) (by decide) rfl rfl]
    by_cases h0 : edge.rows = 0 ∨ edge.cols = 0
    · rw [if_pos h0, eval_copyView_empty (M := full edge.rows edge.cols fun _ _ => 0) (A := ofImg edge) rfl rfl h0, if_pos rfl,
        eval_dtor4 (A := full edge.rows edge.cols fun _ _ => 0) (B := full edge.rows edge.cols fun _ _ => 0) (C := ⟨0, 0, fun _ _ => none⟩)
          (D := full edge.rows edge.cols fun _ _ => 0) rfl rfl rfl rfl (by decide)]
      dsimp only [eval]
      rw [if_neg (by simp)]
      rw [eval_dtor (A := ofImg edge) rfl, eval_dtor (A := ofImg ori) rfl, eval_dtor (A := full edge.rows edge.cols fun _ _ => 0) rfl]
      dsimp only [eval]
      congr 2
      funext u
      unfold upd vEdge vOri vOut mEdge mOri mOut vTmp
      split_ifs <;> rfl
    · rw [if_neg h0]
      rw [eval_copyView (h := edge.rows) (w := edge.cols) (f := fun _ _ => 0) (g := edge.at_) rfl rfl h0 (by decide)]
      rw [if_neg (by simp), if_neg (by simp)]
      rw [eval_copyView (h := edge.rows) (w := edge.cols) (f := fun _ _ => 0) (g := ori.at_) rfl (by rw [hr, hc]; rfl) h0 (by decide)]
      rw [if_neg (by simp), if_neg (by simp)]
      rw [eval_bind, eval_benmsP (I := edge) (O := ori) (A := ⟨0, 0, fun _ _ => none⟩) (by decide) (by decide) rfl rfl rfl
        (by rw [hr, hc]; rfl) hr.symm hc.symm]
      cases hbm : benms edge ori r s m with
      | error er =>
        rw [benms_err hbm]
      | ok im =>
        have hrows : im.rows = edge.rows ∧ im.cols = edge.cols := by
          unfold benms at hbm
          split at hbm
          · cases hbm
          · cases hbm
            exact ⟨rfl, rfl⟩
        dsimp only
        rw [eval_copyView (h := edge.rows) (w := edge.cols) (f := im.at_) (g := fun _ _ => 0)
          (by rw [← hrows.1, ← hrows.2]; rfl) rfl h0 (by decide)]
        rw [if_pos rfl]
        rw [eval_dtor4 (A := ofImg edge) (B := full edge.rows edge.cols ori.at_) (C := ofImg im)
          (D := full edge.rows edge.cols fun _ _ => 0) rfl rfl rfl rfl (by decide)]
        dsimp only [eval]
        rw [if_pos rfl]
        rw [eval_dtor (A := ofImg edge) rfl, eval_dtor (A := ofImg ori) rfl]
        dsimp only [eval]
        congr 2
        have : full edge.rows edge.cols im.at_ = ofImg im := by rw [← hrows.1, ← hrows.2]; rfl
        rw [this]
        unfold onlyOut
        funext u
        unfold upd vEdge vOri vOut mEdge mOri mOut vTmp
        split_ifs <;> first | rfl | omega

end

/-! ## correspond_pixels -/

section
variable {E : MatEnv ℚ}

theorem eval_dtor5 {E : MatEnv α} {a b c d f : Nat} {k : Prog α β} {A B C D F : MatVal α} (ha : E a = some A) (hb : E b = some B)
    (hc : E c = some C) (hd : E d = some D) (hf : E f = some F) (h : [a, b, c, d].Nodup) (h' : f ∉ [a, b, c, d]) :
    eval (dtor5 a b c d f k) E = eval k (upd (upd (upd (upd (upd E f none) d none) c none) b none) a none) := by
  simp only [List.mem_cons, List.not_mem_nil, or_false, not_or] at h'
  obtain ⟨h1, h2, h3, h4⟩ := h'
  unfold dtor5
  rw [eval_dtor hf, eval_dtor4 (A := A) (B := B) (C := C) (D := D) (by rw [upd_ne _ _ (Ne.symm h1)]; exact ha)
    (by rw [upd_ne _ _ (Ne.symm h2)]; exact hb) (by rw [upd_ne _ _ (Ne.symm h3)]; exact hc) (by rw [upd_ne _ _ (Ne.symm h4)]; exact hd) h]

theorem mem_pixels' {h w : Nat} {p : Pix} : p ∈ pixels h w ↔ p.1 < w ∧ p.2 < h := by
  unfold pixels
  simp only [List.mem_flatMap, List.mem_range, List.mem_map]
  constructor
  · rintro ⟨x, hx, y, hy, rfl⟩
    exact ⟨hx, hy⟩
  · rintro ⟨hx, hy⟩
    exact ⟨p.1, hx, p.2, hy, rfl⟩

/-- The reads deliver the pixels of the list that are not 0. -/
theorem eval_readMap {v : Nat} {I : Img ℚ} (hv : E v = some (ofImg I)) : ∀ (l : List Pix) (b : BMap),
    (∀ p ∈ l, p.1 < I.cols ∧ p.2 < I.rows) →
    ∃ b', eval (readMap v l b) E = .ok (b', E) ∧
      (∀ p ∈ l, b' p.2 p.1 = decide (I.at_ p.2 p.1 ≠ 0)) ∧ ∀ y x, (x, y) ∉ l → b' y x = b y x
  | [], b, _ => ⟨b, rfl, by simp, fun _ _ _ => rfl⟩
  | p :: ps, b, hl => by
    obtain ⟨hx, hy⟩ := hl p (by simp)
    unfold readMap
    rw [eval_get_in (o := I.at_) hv (by omega) (by omega)]
    obtain ⟨b', h1, h2, h3⟩ := eval_readMap hv ps
      (fun y x' => if y = p.2 ∧ x' = p.1 then decide (I.at_ (p.2 : ℤ).toNat (p.1 : ℤ).toNat ≠ 0) else b y x')
      (fun q hq => hl q (List.mem_cons_of_mem _ hq))
    refine ⟨b', h1, fun q hq => ?_, fun y x hn => ?_⟩
    · by_cases hq' : q ∈ ps
      · exact h2 q hq'
      · have : q = p := by simpa [hq'] using hq
        subst this
        rw [h3 _ _ hq', if_pos ⟨rfl, rfl⟩, Int.toNat_natCast, Int.toNat_natCast]
    · rw [List.mem_cons, not_or] at hn
      rw [h3 _ _ hn.2, if_neg]
      rintro ⟨rfl, rfl⟩
      exact hn.1 rfl

theorem any_congr_mem {ι : Type} {l : List ι} {p q : ι → Bool} (h : ∀ a ∈ l, p a = q a) : l.any p = l.any q := by
  induction l with
  | nil => rfl
  | cons a l ih =>
    rw [List.any_cons, List.any_cons, h a (by simp), ih fun b hb => h b (List.mem_cons_of_mem _ hb)]

section congr
variable {h w : Nat} {b1 b2 b1' b2' : BMap} {md2 oc2 : ℚ}

theorem targets_range {p q : Pix} (hq : q ∈ targets h w md2 p) : q.1 < w ∧ q.2 < h := by
  unfold targets at hq
  rw [List.mem_filterMap] at hq
  obtain ⟨uv, -, hh⟩ := hq
  split_ifs at hh
  cases hh
  dsimp only
  omega

theorem matchable1_congr (e1 : ∀ p : Pix, p.1 < w ∧ p.2 < h → b1 p.2 p.1 = b1' p.2 p.1)
    (e2 : ∀ p : Pix, p.1 < w ∧ p.2 < h → b2 p.2 p.1 = b2' p.2 p.1) {p : Pix} (hp : p.1 < w ∧ p.2 < h) :
    matchable1 h w md2 b1 b2 p = matchable1 h w md2 b1' b2' p := by
  unfold matchable1
  rw [e1 p hp]
  congr 1
  exact any_congr_mem fun q hq => e2 q (targets_range hq)

theorem matchable2_congr (e1 : ∀ p : Pix, p.1 < w ∧ p.2 < h → b1 p.2 p.1 = b1' p.2 p.1)
    (e2 : ∀ p : Pix, p.1 < w ∧ p.2 < h → b2 p.2 p.1 = b2' p.2 p.1) : matchable2 h w md2 b1 b2 = matchable2 h w md2 b1' b2' := by
  funext q
  unfold matchable2
  refine any_congr_mem fun p hp => ?_
  rw [e1 p (mem_pixels'.1 hp)]
  congr 1
  exact any_congr_mem fun q hq => by rw [e2 q (targets_range hq)]

theorem nodes1_congr (e1 : ∀ p : Pix, p.1 < w ∧ p.2 < h → b1 p.2 p.1 = b1' p.2 p.1)
    (e2 : ∀ p : Pix, p.1 < w ∧ p.2 < h → b2 p.2 p.1 = b2' p.2 p.1) : nodes1 h w md2 b1 b2 = nodes1 h w md2 b1' b2' :=
  List.filter_congr fun _ hp => matchable1_congr e1 e2 (mem_pixels'.1 hp)

theorem nodes2_congr (e1 : ∀ p : Pix, p.1 < w ∧ p.2 < h → b1 p.2 p.1 = b1' p.2 p.1)
    (e2 : ∀ p : Pix, p.1 < w ∧ p.2 < h → b2 p.2 p.1 = b2' p.2 p.1) : nodes2 h w md2 b1 b2 = nodes2 h w md2 b1' b2' := by
  unfold nodes2
  rw [matchable2_congr e1 e2]

theorem realEdges_congr (e1 : ∀ p : Pix, p.1 < w ∧ p.2 < h → b1 p.2 p.1 = b1' p.2 p.1)
    (e2 : ∀ p : Pix, p.1 < w ∧ p.2 < h → b2 p.2 p.1 = b2' p.2 p.1) : realEdges h w md2 b1 b2 = realEdges h w md2 b1' b2' := by
  unfold realEdges
  rw [matchable2_congr e1 e2, nodes1_congr e1 e2, nodes2_congr e1 e2]

/-- The matching, not encoded, sees only the pixels of the images. -/
theorem matchWith_congr (e1 : ∀ p : Pix, p.1 < w ∧ p.2 < h → b1 p.2 p.1 = b1' p.2 p.1)
    (e2 : ∀ p : Pix, p.1 < w ∧ p.2 < h → b2 p.2 p.1 = b2' p.2 p.1) (solve : Nat → List InArc → Option (List InArc)) (xs : Nat → ℚ)
    (pos : Nat) : (matchWith solve h w b1 b2 md2 oc2 xs pos).map (·.mt) = (matchWith solve h w b1' b2' md2 oc2 xs pos).map (·.mt) := by
  unfold matchWith
  rw [nodes1_congr e1 e2, nodes2_congr e1 e2, realEdges_congr e1 e2]
  dsimp only
  split
  · rfl
  · split
    · rfl
    · split
      · rfl
      · split
        · rfl
        · split
          · rfl
          · split <;> rfl

/-- The encoding of the result. -/
theorem matchWith_encode {solve : Nat → List InArc → Option (List InArc)} {xs : Nat → ℚ} {pos : Nat} {r : MatchOut}
    (hr : matchWith solve h w b1 b2 md2 oc2 xs pos = some r) :
    (announcedM (nodes1 h w md2 b1 b2).length (nodes2 h w md2 b1 b2).length (realEdges h w md2 b1 b2).length = 0 →
      r.m1 = (fun _ _ => 0) ∧ r.m2 = (fun _ _ => 0)) ∧
    r.m1 = encodeMatch h b1 r.mt.m1 ∧ r.m2 = encodeMatch h b2 r.mt.m2 := by
  unfold matchWith at hr
  dsimp only at hr
  split at hr
  · cases hr
  · split at hr
    · cases hr
    · split at hr
      · cases hr
        refine ⟨fun _ => ⟨rfl, rfl⟩, ?_, ?_⟩
        · funext y x
          unfold encodeMatch
          split <;> rfl
        · funext y x
          unfold encodeMatch
          split <;> rfl
      · rename_i hm
        split at hr
        · cases hr
        · split at hr
          · cases hr
          · split at hr
            · cases hr
            · cases hr
              exact ⟨fun h0 => absurd h0 hm, rfl, rfl⟩

theorem matchCost_congr (e1 : ∀ p : Pix, p.1 < w ∧ p.2 < h → b1 p.2 p.1 = b1' p.2 p.1)
    (e2 : ∀ p : Pix, p.1 < w ∧ p.2 < h → b2 p.2 p.1 = b2' p.2 p.1) (mt : Matches) :
    matchCost h w b1 b2 md2 oc2 mt = matchCost h w b1' b2' md2 oc2 mt := by
  unfold matchCost
  rw [nodes1_congr e1 e2, nodes2_congr e1 e2, realEdges_congr e1 e2]
  congr 2
  refine List.map_congr_left fun p hp => ?_
  rw [e1 p (mem_pixels'.1 hp), e2 p (mem_pixels'.1 hp)]

end congr

/-- Write of the match of one pixel. -/
def encCell (h : Nat) (m : Pix → Option Pix) (I : Img ℚ) (o : Nat → Nat → ℚ) (x y : Nat) : Nat → Nat → ℚ := fun i j =>
  if i = y ∧ j = x ∧ I.at_ y x ≠ 0 then (match m (x, y) with | some q => ((q.1 * h + q.2 + 1 : Nat) : ℚ) | none => o i j) else o i j

theorem eval_writeMatch {out bmap h w : Nat} {I : Img ℚ} (hI : E bmap = some (ofImg I)) {o : Nat → Nat → ℚ}
    (ho : E out = some (full h w o)) (hr : I.rows = h) (hc : I.cols = w) {m : Pix → Option Pix} {x y : Nat} (hx : x < w) (hy : y < h)
    (k : Prog ℚ Unit) :
    eval (writeMatch out bmap h m x y k) E = eval k (upd E out (some (full h w (encCell h m I o x y)))) := by
  unfold writeMatch
  rw [eval_get_in (o := I.at_) hI (by omega) (by omega), Int.toNat_natCast, Int.toNat_natCast]
  have hs : ∀ o', o' = o → upd E out (some (full h w o')) = E := by
    rintro o' rfl
    rw [← ho]
    exact upd_same E out
  by_cases hv : I.at_ y x ≠ 0
  · rw [if_pos hv]
    cases hm : m (x, y) with
    | none =>
      dsimp only
      rw [hs]
      funext i j
      unfold encCell
      rw [hm]
      dsimp only
      split <;> rfl
    | some q =>
      dsimp only
      rw [eval_put_in ho _ (by omega) (by omega), Int.toNat_natCast, Int.toNat_natCast]
      congr 4
      funext i j
      unfold encCell
      rw [hm]
      dsimp only
      by_cases hij : i = y ∧ j = x
      · rw [if_pos hij, if_pos ⟨hij.1, hij.2, hv⟩]
      · rw [if_neg hij, if_neg (fun hh => hij ⟨hh.1, hh.2.1⟩)]
  · rw [if_neg hv, hs]
    funext i j
    unfold encCell
    rw [if_neg (fun hh => hv hh.2.2)]

theorem eval_writeLoop {out0 out1 m0 m1 h w : Nat} {I0 I1 : Img ℚ} (hd : [out0, out1, m0, m1].Nodup) (h0 : E m0 = some (ofImg I0))
    (h1 : E m1 = some (ofImg I1)) (hr0 : I0.rows = h) (hc0 : I0.cols = w) (hr1 : I1.rows = h) (hc1 : I1.cols = w)
    {f g : Pix → Option Pix} : ∀ (l : List Pix) (o0 o1 : Nat → Nat → ℚ), (∀ p ∈ l, p.1 < w ∧ p.2 < h) →
    eval (each l fun p => writeMatch out0 m0 h f p.1 p.2 (writeMatch out1 m1 h g p.1 p.2 (.ret ())))
        (upd (upd E out0 (some (full h w o0))) out1 (some (full h w o1))) =
      .ok ((), upd (upd E out0 (some (full h w (l.foldl (fun o p => encCell h f I0 o p.1 p.2) o0)))) out1
        (some (full h w (l.foldl (fun o p => encCell h g I1 o p.1 p.2) o1))))
  | [], o0, o1, _ => rfl
  | p :: ps, o0, o1, hl => by
    have hd' := hd
    simp only [List.nodup_cons, List.mem_cons, List.not_mem_nil, or_false, not_or] at hd'
    obtain ⟨⟨n1, n2, n3⟩, ⟨n4, n5⟩, n6, -⟩ := hd'
    obtain ⟨hx, hy⟩ := hl p (by simp)
    unfold each
    rw [eval_bind, eval_writeMatch (I := I0) (o := o0) (w := w) (by rw [upd_ne _ _ (Ne.symm n4), upd_ne _ _ (Ne.symm n2)]; exact h0)
      (by rw [upd_ne _ _ n1]; exact upd_self _ _ _) hr0 hc0 hx hy, upd_comm _ (Ne.symm n1), upd_upd,
      eval_writeMatch (I := I1) (o := o1) (w := w) (by rw [upd_ne _ _ (Ne.symm n5), upd_ne _ _ (Ne.symm n3)]; exact h1)
      (upd_self _ _ _) hr1 hc1 hx hy, upd_upd]
    exact eval_writeLoop hd h0 h1 hr0 hc0 hr1 hc1 ps _ _ (fun q hq => hl q (List.mem_cons_of_mem _ hq))

theorem foldl_encCell {h : Nat} {f : Pix → Option Pix} {I : Img ℚ} : ∀ (l : List Pix) (o : Nat → Nat → ℚ) (y x : Nat),
    l.foldl (fun o p => encCell h f I o p.1 p.2) o y x =
      if (x, y) ∈ l ∧ I.at_ y x ≠ 0 then (match f (x, y) with | some q => ((q.1 * h + q.2 + 1 : Nat) : ℚ) | none => o y x) else o y x
  | [], o, y, x => by simp
  | p :: ps, o, y, x => by
    rw [List.foldl_cons, foldl_encCell ps]
    by_cases hp : (x, y) = p
    · subst hp
      unfold encCell
      dsimp only
      by_cases hv : I.at_ y x ≠ 0
      · cases f (x, y) <;> simp [hv]
      · simp [hv]
    · have : encCell h f I o p.1 p.2 y x = o y x := by
        unfold encCell
        rw [if_neg]
        rintro ⟨rfl, rfl, -⟩
        exact hp rfl
      rw [this]
      simp only [List.mem_cons, hp, false_or]

/-- The bits of an image. -/
def bitsOf (I : Img ℚ) : BMap := fun y x => I.at_ y x ≠ 0

theorem eval_matchP {I0 I1 : Img ℚ} {t out0 out1 m0 m1 : Nat} (hd : [out0, out1, m0, m1].Nodup) (ht : E t = none) {A B : MatVal ℚ}
    (ho0 : E out0 = some A) (ho1 : E out1 = some B) (h0 : E m0 = some (ofImg I0)) (h1 : E m1 = some (ofImg I1)) (hr : I0.rows = I1.rows)
    (hc : I0.cols = I1.cols) (fuel : Nat) (md2 oc2 : ℚ) (xs : Nat → ℚ) (pos : Nat) :
    match matchEdgeMaps fuel I0.rows I0.cols (bitsOf I0) (bitsOf I1) md2 oc2 xs pos with
    | some r => ∃ f0 f1 : Nat → Nat → ℚ, eval (matchP t out0 out1 m0 m1 fuel md2 oc2 xs pos) E =
        .ok (matchCost I0.rows I0.cols (bitsOf I0) (bitsOf I1) md2 oc2 r.mt,
          upd (upd E out0 (some (full I0.rows I0.cols f0))) out1 (some (full I0.rows I0.cols f1))) ∧
        ∀ y < I0.rows, ∀ x < I0.cols, f0 y x = r.m1 y x ∧ f1 y x = r.m2 y x
    | none => eval (matchP t out0 out1 m0 m1 fuel md2 oc2 xs pos) E = .error .abort := by
  have hd' := hd
  simp only [List.nodup_cons, List.mem_cons, List.not_mem_nil, or_false, not_or] at hd'
  obtain ⟨⟨n1, n2, n3⟩, ⟨n4, n5⟩, n6, -⟩ := hd'
  have nt : t ≠ out0 := by rintro rfl; rw [ht] at ho0; cases ho0
  unfold matchP
  rw [eval_size h0, eval_size h1]
  have er : (ofImg I0).rows = I0.rows := rfl
  have ec : (ofImg I0).cols = I0.cols := rfl
  have er1 : (ofImg I1).rows = I1.rows := rfl
  have ec1 : (ofImg I1).cols = I1.cols := rfl
  simp only [er, ec, er1, ec1]
  rw [if_pos ⟨hr, hc⟩, eval_assignNew ho0 ht, eval_assignNew (A := B) (by rw [upd_ne _ _ (Ne.symm n1)]; exact ho1)
    (by rw [upd_ne _ _ nt]; exact ht)]
  set E2 := upd (upd E out0 (some (full I0.rows I0.cols fun _ _ => 0))) out1 (some (full I0.rows I0.cols fun _ _ => 0)) with hE2
  have hE0 : E2 m0 = some (ofImg I0) := by rw [hE2, upd_ne _ _ (Ne.symm n4), upd_ne _ _ (Ne.symm n2)]; exact h0
  have hE1 : E2 m1 = some (ofImg I1) := by rw [hE2, upd_ne _ _ (Ne.symm n5), upd_ne _ _ (Ne.symm n3)]; exact h1
  obtain ⟨b0, hb0, hin0, -⟩ := eval_readMap hE0 (pixels I0.rows I0.cols) (fun _ _ => false) (fun p hp => mem_pixels'.1 hp)
  obtain ⟨b1, hb1, hin1, -⟩ := eval_readMap hE1 (pixels I0.rows I0.cols) (fun _ _ => false)
    (fun p hp => by rw [← hr, ← hc]; exact mem_pixels'.1 hp)
  rw [eval_bind, hb0]
  dsimp only
  rw [eval_bind, hb1]
  dsimp only
  have e0 : ∀ p : Pix, p.1 < I0.cols ∧ p.2 < I0.rows → b0 p.2 p.1 = bitsOf I0 p.2 p.1 := fun p hp => hin0 p (mem_pixels'.2 hp)
  have e1 : ∀ p : Pix, p.1 < I0.cols ∧ p.2 < I0.rows → b1 p.2 p.1 = bitsOf I1 p.2 p.1 := fun p hp => hin1 p (mem_pixels'.2 hp)
  have hcg := matchWith_congr (md2 := md2) (oc2 := oc2) e0 e1 (csaSolve fuel) xs pos
  change (matchEdgeMaps fuel I0.rows I0.cols b0 b1 md2 oc2 xs pos).map _ = (matchEdgeMaps fuel I0.rows I0.cols _ _ md2 oc2 xs pos).map _ at hcg
  cases hm : matchEdgeMaps fuel I0.rows I0.cols (bitsOf I0) (bitsOf I1) md2 oc2 xs pos with
  | none =>
    rw [hm] at hcg
    cases hm' : matchEdgeMaps fuel I0.rows I0.cols b0 b1 md2 oc2 xs pos with
    | some r' => rw [hm'] at hcg; cases hcg
    | none => rfl
  | some r =>
    rw [hm] at hcg
    cases hm' : matchEdgeMaps fuel I0.rows I0.cols b0 b1 md2 oc2 xs pos with
    | none => rw [hm'] at hcg; cases hcg
    | some r' =>
      rw [hm'] at hcg
      have hmt : r'.mt = r.mt := by simpa using hcg
      dsimp only
      rw [hmt, nodes1_congr e0 e1, nodes2_congr e0 e1, realEdges_congr e0 e1, matchCost_congr e0 e1]
      obtain ⟨z, z1, z2⟩ := matchWith_encode hm
      by_cases ha : announcedM (nodes1 I0.rows I0.cols md2 (bitsOf I0) (bitsOf I1)).length
          (nodes2 I0.rows I0.cols md2 (bitsOf I0) (bitsOf I1)).length (realEdges I0.rows I0.cols md2 (bitsOf I0) (bitsOf I1)).length = 0
      · rw [if_pos ha, eval_bind]
        refine ⟨fun _ _ => 0, fun _ _ => 0, rfl, fun y _ x _ => ?_⟩
        rw [(z ha).1, (z ha).2]
        exact ⟨Nat.cast_zero.symm, Nat.cast_zero.symm⟩
      · rw [if_neg ha, eval_bind]
        rw [hE2, eval_writeLoop (I0 := I0) (I1 := I1) hd h0 h1 rfl rfl hr.symm hc.symm _ _ _ (fun p hp => mem_pixels'.1 hp)]
        refine ⟨_, _, rfl, fun y hy x hx => ?_⟩
        rw [foldl_encCell, foldl_encCell, z1, z2]
        have hmem : (x, y) ∈ pixels I0.rows I0.cols := mem_pixels'.2 ⟨hx, hy⟩
        constructor
        · unfold encodeMatch bitsOf
          by_cases hv : I0.at_ y x ≠ 0
          · rw [if_pos ⟨hmem, hv⟩, if_pos (by simpa using hv)]
            cases r.mt.m1 (x, y) <;> simp
          · rw [if_neg (fun hh => hv hh.2), if_neg (by simpa using hv)]
            simp
        · unfold encodeMatch bitsOf
          by_cases hv : I1.at_ y x ≠ 0
          · rw [if_pos ⟨hmem, hv⟩, if_pos (by simpa using hv)]
            cases r.mt.m2 (x, y) <;> simp
          · rw [if_neg (fun hh => hv hh.2), if_neg (by simpa using hv)]
            simp

theorem eval_corrTail {i0 i1 : Img ℚ} (hr : i0.rows = i1.rows) (hc : i0.cols = i1.cols) (h0 : ¬ (i0.rows = 0 ∨ i0.cols = 0))
    {A B T : MatVal ℚ} (g1 : E cI0 = some (ofImg i0)) (g2 : E cI1 = some (ofImg i1)) (g3 : E cM0 = some A) (g4 : E cM1 = some B)
    (g5 : E cTmp = some T) (g6 : E cTmp' = none) {z0 z1 : Nat → Nat → ℚ} (g7 : E aO0 = some (full i0.rows i0.cols z0))
    (g8 : E aO1 = some (full i0.rows i0.cols z1)) (fuel : Nat) (md2 oc2 : ℚ) (xs : Nat → ℚ) (pos : Nat) (P : Prog ℚ (Option ℝ))
    (hP : P = ((matchP cTmp' cM0 cM1 cI0 cI1 fuel md2 oc2 xs pos).bind fun cost =>
      .copyView true cM0 aO0 fun ok3 =>
        if ok3 = false then dtor5 cI0 cI1 cM0 cM1 cTmp (.ret none) else
      .copyView true cM1 aO1 fun ok4 =>
        if ok4 = false then dtor5 cI0 cI1 cM0 cM1 cTmp (.ret none) else
      dtor5 cI0 cI1 cM0 cM1 cTmp (.ret (some cost)))) :
    match matchEdgeMaps fuel i0.rows i0.cols (bitsOf i0) (bitsOf i1) md2 oc2 xs pos with
    | some r => ∃ f0 f1 : Nat → Nat → ℚ, eval P E =
        .ok (some (matchCost i0.rows i0.cols (bitsOf i0) (bitsOf i1) md2 oc2 r.mt), fun u =>
          if u = aO0 then some (full i0.rows i0.cols f0) else if u = aO1 then some (full i0.rows i0.cols f1)
          else if u ∈ [cI0, cI1, cM0, cM1, cTmp] then none else E u) ∧
        ∀ y < i0.rows, ∀ x < i0.cols, f0 y x = r.m1 y x ∧ f1 y x = r.m2 y x
    | none => eval P E = .error .abort := by
  have hmp := eval_matchP (E := E) (I0 := i0) (I1 := i1) (t := cTmp') (out0 := cM0) (out1 := cM1) (m0 := cI0) (m1 := cI1) (by decide)
    g6 g3 g4 g1 g2 hr hc fuel md2 oc2 xs pos
  subst hP
  rw [eval_bind]
  cases hm : matchEdgeMaps fuel i0.rows i0.cols (bitsOf i0) (bitsOf i1) md2 oc2 xs pos with
  | none =>
    rw [hm] at hmp
    dsimp only at hmp ⊢
    rw [hmp]
  | some r =>
    rw [hm] at hmp
    obtain ⟨f0, f1, he, hf⟩ := hmp
    dsimp only
    refine ⟨f0, f1, ?_, hf⟩
    rw [he]
    dsimp only
    rw [eval_copyView (h := i0.rows) (w := i0.cols) (f := f0) (g := z0) rfl (by exact g7) h0 (by decide), if_neg (by simp), if_pos rfl,
      eval_copyView (h := i0.rows) (w := i0.cols) (f := f1) (g := z1) rfl (by exact g8) h0 (by decide), if_neg (by simp), if_pos rfl,
      eval_dtor5 (A := ofImg i0) (B := ofImg i1) (C := full i0.rows i0.cols f0) (D := full i0.rows i0.cols f1) (F := T) (by exact g1)
        (by exact g2) rfl rfl (by exact g5) (by decide) (by decide), eval_ret]
    congr 2
    funext u
    simp only [List.mem_cons, List.not_mem_nil, or_false]
    unfold upd aO0 aO1 cI0 cI1 cM0 cM1 cTmp
    split_ifs <;> first | rfl | omega

/-- What is known when the matching starts. -/
structure CorrReady (E : MatEnv ℚ) (i0 i1 : Img ℚ) : Prop where
  g1 : E cI0 = some (ofImg i0)
  g2 : E cI1 = some (ofImg i1)
  g3 : E cM0 = some ⟨0, 0, fun _ _ => none⟩
  g4 : E cM1 = some ⟨0, 0, fun _ _ => none⟩
  g5 : E cTmp = some (full i0.rows i0.cols fun _ _ => 0)
  g7 : E aO0 = some (full i0.rows i0.cols fun _ _ => 0)
  g8 : E aO1 = some (full i0.rows i0.cols fun _ _ => 0)
  g9 : E aI0 = some (ofImg i0)
  g10 : E aI1 = some (ofImg i1)
  g11 : ∀ u, 9 ≤ u → E u = none

/-- The environment when the Cython function is entered. -/
def corrStart (i0 i1 : Img ℚ) : MatEnv ℚ :=
  upd (upd (upd (upd (fun _ => none) aI0 (some (ofImg i0))) aI1 (some (ofImg i1))) aO0
    (some (ofImg ⟨i0.rows, i0.cols, fun _ _ => 0⟩))) aO1 (some (ofImg ⟨i1.rows, i1.cols, fun _ _ => 0⟩))

theorem corrCy_ready {i0 i1 : Img ℚ} (hr : i0.rows = i1.rows) (hc : i0.cols = i1.cols) (h0 : ¬ (i0.rows = 0 ∨ i0.cols = 0)) (fuel : Nat)
    (md2 oc2 : ℚ) (xs : Nat → ℚ) (pos : Nat) :
    ∃ Er, CorrReady Er i0 i1 ∧ eval (corrCy fuel md2 oc2 xs pos) (corrStart i0 i1) =
      eval ((matchP cTmp' cM0 cM1 cI0 cI1 fuel md2 oc2 xs pos).bind fun cost =>
        .copyView true cM0 aO0 fun ok3 =>
          if ok3 = false then dtor5 cI0 cI1 cM0 cM1 cTmp (.ret none) else
        .copyView true cM1 aO1 fun ok4 =>
          if ok4 = false then dtor5 cI0 cI1 cM0 cM1 cTmp (.ret none) else
        dtor5 cI0 cI1 cM0 cM1 cTmp (.ret (some cost))) Er := by
  refine ⟨?Er, ?g, ?h⟩
  case h =>
    unfold corrCy corrStart
    rw [eval_size (A := ofImg i0) rfl]
    have er : (ofImg i0).rows = i0.rows := rfl
    have ec : (ofImg i0).cols = i0.cols := rfl
    rw [er, ec, eval_ctorDefault rfl, eval_ctorDefault rfl, eval_ctorDefault rfl, eval_ctorDefault rfl, eval_ctorDefault rfl,
      eval_assignNew (A := ⟨0, 0, fun _ _ => none⟩) rfl rfl,
      eval_assign (A := ⟨0, 0, fun _ _ => none⟩) (B := full i0.rows i0.cols fun _ _ => 0) (by decide) rfl rfl,
      eval_assignNew (A := full i0.rows i0.cols fun _ _ => 0) rfl rfl,
      eval_assign (A := ⟨0, 0, fun _ _ => none⟩) (B := full i0.rows i0.cols fun _ _ => 0) (by decide) rfl rfl]
    rw [eval_copyView (h := i0.rows) (w := i0.cols) (f := fun _ _ => 0) (g := i0.at_) rfl rfl h0 (by decide)]
    rw [if_neg (by simp), if_neg (by simp)]
    rw [eval_copyView (h := i0.rows) (w := i0.cols) (f := fun _ _ => 0) (g := i1.at_) rfl (by rw [hr, hc]; rfl) h0 (by decide)]
    rw [if_neg (by simp), if_neg (by simp)]
  case g =>
    have e1 : full i0.rows i0.cols i1.at_ = ofImg i1 := by rw [hr, hc]; rfl
    refine ⟨rfl, ?_, rfl, rfl, rfl, rfl, ?_, rfl, rfl, fun u hu => ?_⟩
    · rw [e1]
      rfl
    · rw [hr, hc]
      rfl
    · unfold upd aI0 aI1 aO0 aO1 cI0 cI1 cM0 cM1 cTmp
      split_ifs <;> first | rfl | omega

theorem corrCy_empty {i0 i1 : Img ℚ} (h0 : i0.rows = 0 ∨ i0.cols = 0) (fuel : Nat) (md2 oc2 : ℚ) (xs : Nat → ℚ) (pos : Nat) :
    eval (corrCy fuel md2 oc2 xs pos) (corrStart i0 i1) = .ok (none, corrStart i0 i1) := by
  unfold corrCy
  rw [eval_size (A := ofImg i0) rfl]
  have er : (ofImg i0).rows = i0.rows := rfl
  have ec : (ofImg i0).cols = i0.cols := rfl
  rw [er, ec, eval_ctorDefault rfl, eval_ctorDefault rfl, eval_ctorDefault rfl, eval_ctorDefault rfl, eval_ctorDefault rfl,
    eval_assignNew (A := ⟨0, 0, fun _ _ => none⟩) rfl rfl,
    eval_assign (A := ⟨0, 0, fun _ _ => none⟩) (B := full i0.rows i0.cols fun _ _ => 0) (by decide) rfl rfl,
    eval_assignNew (A := full i0.rows i0.cols fun _ _ => 0) rfl rfl,
    eval_assign (A := ⟨0, 0, fun _ _ => none⟩) (B := full i0.rows i0.cols fun _ _ => 0) (by decide) rfl rfl]
  rw [eval_copyView_empty (M := full i0.rows i0.cols fun _ _ => 0) (A := ofImg i0) rfl rfl h0, if_pos rfl,
    eval_dtor5 (A := full i0.rows i0.cols fun _ _ => 0) (B := full i0.rows i0.cols fun _ _ => 0) (C := ⟨0, 0, fun _ _ => none⟩)
      (D := ⟨0, 0, fun _ _ => none⟩) (F := full i0.rows i0.cols fun _ _ => 0) rfl rfl rfl rfl rfl (by decide) (by decide)]
  rw [eval_ret]
  congr 2
  funext u
  unfold corrStart upd aI0 aI1 aO0 aO1 cI0 cI1 cM0 cM1 cTmp
  split_ifs <;> first | rfl | omega

theorem eval_corrP (fuel : Nat) (i0 i1 : Img ℚ) (maxDist outlierCost : ℚ) (xs : Nat → ℚ) (pos : Nat) :
    match correspondPixels fuel i0 i1 maxDist outlierCost xs pos with
    | .ok (some r) => ∃ f0 f1 : Nat → Nat → ℚ, eval (corrP fuel i0 i1 maxDist outlierCost xs pos) (fun _ => none) =
        .ok (some (r.cost, r.oc),
          upd (upd (fun _ => none) aO0 (some (full i0.rows i0.cols f0))) aO1 (some (full i0.rows i0.cols f1))) ∧
        ∀ y < i0.rows, ∀ x < i0.cols, f0 y x = r.o0 y x ∧ f1 y x = r.o1 y x
    | .ok none => eval (corrP fuel i0 i1 maxDist outlierCost xs pos) (fun _ => none) = .error .abort
    | .error _ => eval (corrP fuel i0 i1 maxDist outlierCost xs pos) (fun _ => none) = .ok (none, fun _ => none) := by
  unfold corrP correspondPixels corrCheck
  by_cases h1 : ¬ (i0.rows = i1.rows ∧ i0.cols = i1.cols)
  · rw [if_pos h1, if_pos h1]
    rfl
  rw [if_neg h1, if_neg h1]
  by_cases h2 : maxDist ≤ 0
  · rw [if_pos h2, if_pos h2]
    rfl
  rw [if_neg h2, if_neg h2]
  by_cases h3 : outlierCost ≤ 1
  · rw [if_pos h3, if_pos h3]
    rfl
  rw [if_neg h3, if_neg h3]
  obtain ⟨hr, hc⟩ := not_not.1 h1
  rw [eval_arrayOf rfl, eval_arrayOf rfl, eval_arrayOf rfl, eval_arrayOf rfl, eval_bind]
  rw [show (upd (upd (upd (upd (fun _ => none) aI0 (some (ofImg i0))) aI1 (some (ofImg i1))) aO0
    (some (ofImg ⟨i0.rows, i0.cols, fun _ _ => 0⟩))) aO1 (some (ofImg ⟨i1.rows, i1.cols, fun _ _ => 0⟩)) : MatEnv ℚ) = corrStart i0 i1 from rfl]
  by_cases h0 : i0.rows = 0 ∨ i0.cols = 0
  · rw [if_pos h0, corrCy_empty h0]
    dsimp only
    rw [eval_dtor (A := ofImg i0) rfl, eval_dtor (A := ofImg i1) rfl, eval_dtor (A := full i0.rows i0.cols fun _ _ => 0) rfl,
      eval_dtor (A := full i1.rows i1.cols fun _ _ => 0) rfl, eval_ret]
    congr 2
    funext u
    unfold corrStart upd aI0 aI1 aO0 aO1
    split_ifs <;> rfl
  · rw [if_neg h0]
    obtain ⟨Er, G, hE⟩ := corrCy_ready hr hc h0 fuel (maxDist2 i0.rows i0.cols maxDist)
      (outlierCost ^ 2 * maxDist2 i0.rows i0.cols maxDist) xs pos
    rw [hE]
    dsimp only
    have hb0 : (fun y x => decide (i0.at_ y x ≠ 0) : BMap) = bitsOf i0 := rfl
    have hb1 : (fun y x => decide (i1.at_ y x ≠ 0) : BMap) = bitsOf i1 := rfl
    rw [hb0, hb1]
    have ht := eval_corrTail hr hc h0 G.g1 G.g2 G.g3 G.g4 G.g5 (G.g11 _ (le_refl _)) G.g7 G.g8 fuel (maxDist2 i0.rows i0.cols maxDist)
      (outlierCost ^ 2 * maxDist2 i0.rows i0.cols maxDist) xs pos _ rfl
    cases hm : matchEdgeMaps fuel i0.rows i0.cols (bitsOf i0) (bitsOf i1) (maxDist2 i0.rows i0.cols maxDist)
      (outlierCost ^ 2 * maxDist2 i0.rows i0.cols maxDist) xs pos with
    | none =>
      rw [hm] at ht
      dsimp only [Option.map_none] at ht ⊢
      rw [ht]
    | some r =>
      rw [hm] at ht
      dsimp only [Option.map_some] at ht ⊢
      obtain ⟨f0, f1, he, hf⟩ := ht
      refine ⟨f0, f1, ?_, hf⟩
      rw [he]
      dsimp only
      rw [eval_dtor (A := ofImg i0) (by exact G.g9), eval_dtor (A := ofImg i1) (by exact G.g10), eval_ret]
      congr 2
      funext u
      have := G.g11 u
      simp only [List.mem_cons, List.not_mem_nil, or_false]
      unfold upd aI0 aI1 aO0 aO1 cI0 cI1 cM0 cM1 cTmp
      dsimp only
      split_ifs <;> first | rfl | omega | exact this (by omega)

end

end EdgeEval.MatrixMem
