import Verif.Props.MatFile
import Verif.Props.Tighten6
import Verif.Props.ConvertSbdEx

/-!
# C81: the conversion of SBD, from the MATLAB files to the pictures
-/

namespace EdgeEval.Props

open Spec Text Evaluators Samples Datasets EdgeEval.Convert EdgeEval.ConvertSbd MatFile

/-! ## Specification -/

/-- The two MATLAB files of a sample, `dir/k1/n.mat` and `dir/k2/n.mat`, are in place and hold these annotations. -/
structure MatPair (env : MatEnv) (ex : Str → Bool) (dir k1 k2 n : Str) (c : ClsMat) (x : InstMat) : Prop where
  relName : Relative n
  exCls : ex (slashed [dir, k1, n ++ ".mat".toList]) = true
  exInst : ex (slashed [dir, k2, n ++ ".mat".toList]) = true
  cls : ∃ f, env.files (slashed [dir, k1, n ++ ".mat".toList]) = some f ∧ IsClsFile f c
  inst : ∃ f, env.files (slashed [dir, k2, n ++ ".mat".toList]) = some f ∧ IsInstFile f x

/-- The SBD directory: usable paths, both annotation directories, both lists (one name per line, with any of the three
line ends), the files of every listed sample; pictures of 22 rows at least, instances that fit the classes. -/
structure SbdDisk (env : MatEnv) (ex : Str → Bool) (text : Str → Option Str) (a : SbdArgs) (train val : List Str)
    (mats : Str → ClsMat × InstMat) : Prop where
  root : DirArg a.root
  out : DirArg a.outDir
  outRel : Relative a.outDir
  clsDir : ex (slashed [a.root, "cls_orig".toList]) = true
  instDir : ex (slashed [a.root, "inst_orig".toList]) = true
  trainFile : ∃ eol, (eol = ['\n'] ∨ eol = ['\r', '\n'] ∨ eol = ['\r']) ∧
    text (slashed [a.root, "train.txt".toList]) = some (linesText eol train)
  valFile : ∃ eol, (eol = ['\n'] ∨ eol = ['\r', '\n'] ∨ eol = ['\r']) ∧
    text (slashed [a.root, "val.txt".toList]) = some (linesText eol val)
  trainNe : train ≠ []
  valNe : val ≠ []
  lines : ∀ n ∈ train ++ val, NoEol n
  files : ∀ n ∈ train ++ val, MatPair env ex a.root "cls_orig".toList "inst_orig".toList n (mats n).1 (mats n).2
  rows : ∀ n ∈ train ++ val, 22 ≤ (mats n).1.seg.rows
  fits : ∀ n ∈ train ++ val, InstFits (mats n).2.seg (mats n).2.cats (mats n).1.present (mats n).1.seg

/-- A directory of re-annotated samples: the list (not a single name) in `test.mat`, the files of every listed sample; two
classes at least, pictures of two rows and two columns at least. -/
structure ReannoDisk (env : MatEnv) (ex : Str → Bool) (dir : Str) (names : List Str) (mats : Str → ClsMat × InstMat) : Prop where
  here : ex dir = true
  clsDir : ex (slashed [dir, "cls".toList]) = true
  instDir : ex (slashed [dir, "inst".toList]) = true
  list : ∃ f v, env.files (slashed [dir, "test.mat".toList]) = some f ∧ HasVar f "listTest".toList v ∧ IsNames v names
  many : names.length ≠ 1
  files : ∀ n ∈ names, MatPair env ex dir "cls".toList "inst".toList n (mats n).1 (mats n).2
  fits : ∀ n ∈ names, ReannoFits (mats n).1 (mats n).2
  classes : ∀ n ∈ names, 2 ≤ (mats n).1.bdry.n
  big : ∀ n ∈ names, 2 ≤ (mats n).1.bdry.h ∧ 2 ≤ (mats n).1.bdry.w

/-! ## Annotations that agree on the picture -/

/-- The same boundaries, labels and categories. -/
structure Agree (b b' : MLEdges) (s s' : Img Nat) (l l' : List Nat) : Prop where
  n : b'.n = b.n
  h : b'.h = b.h
  w : b'.w = b.w
  bdry : ∀ k < b.n, ∀ i < b.h, ∀ j < b.w, b'.at_ k i j = b.at_ k i j
  rows : s'.rows = s.rows
  cols : s'.cols = s.cols
  seg : ∀ i < s.rows, ∀ j < s.cols, s'.at_ i j = s.at_ i j
  cats : l' = l

theorem agree_of {r : Loaded} {b : MLEdges} {s : Img Nat} {l : List Nat} (h : Spec.Returns r b s l) :
    Agree b (asBdry r) s (asSeg r) l (asCats r) := by
  obtain ⟨⟨h1, h2, h3, h4⟩, ⟨h5, h6, h7⟩, h8⟩ := C80_conversion_input r b s l h
  exact ⟨h1, h2, h3, h4, h5, h6, h7, h8⟩

theorem valuePx_congr {S S' : Img Nat} (h1 : S'.rows = S.rows) (h2 : S'.cols = S.cols)
    (h3 : ∀ i < S.rows, ∀ j < S.cols, S'.at_ i j = S.at_ i j) (v : Nat) : valuePx S' v = valuePx S v := by
  ext ⟨i, j⟩
  show (i < S'.rows ∧ j < S'.cols) ∧ S'.at_ i j = v ↔ (i < S.rows ∧ j < S.cols) ∧ S.at_ i j = v
  rw [h1, h2]
  constructor
  · rintro ⟨⟨g1, g2⟩, g3⟩
    exact ⟨⟨g1, g2⟩, by rw [← h3 i g1 j g2]; exact g3⟩
  · rintro ⟨⟨g1, g2⟩, g3⟩
    exact ⟨⟨g1, g2⟩, by rw [h3 i g1 j g2]; exact g3⟩

theorem sbdEdge_congr {S S' : Img Nat} (h1 : S'.rows = S.rows) (h2 : S'.cols = S.cols)
    (h3 : ∀ i < S.rows, ∀ j < S.cols, S'.at_ i j = S.at_ i j) (r : ℝ) (B : Img Nat) (inst : Bool) (cats present : List Nat)
    (l : Nat) (p : Px) : SbdEdge r B (if inst then some (S', cats) else none) present l p ↔
      SbdEdge r B (if inst then some (S, cats) else none) present l p := by
  cases inst
  · exact Iff.rfl
  · simp only [if_true]
    unfold SbdEdge
    refine and_congr_right fun _ => or_congr_right ?_
    constructor
    · rintro ⟨T, cs, v, he, g1, g2, g3⟩
      injection he with he
      injection he with e1 e2
      subst e1 e2
      exact ⟨S, _, v, rfl, g1, g2, by rw [← valuePx_congr h1 h2 h3]; exact g3⟩
    · rintro ⟨T, cs, v, he, g1, g2, g3⟩
      injection he with he
      injection he with e1 e2
      subst e1 e2
      exact ⟨S', _, v, rfl, g1, g2, by rw [valuePx_congr h1 h2 h3]; exact g3⟩

theorem bordered_congr {S S' B : Img Nat} (h1 : S'.rows = S.rows) (h2 : S'.cols = S.cols)
    (h3 : ∀ i < S.rows, ∀ j < S.cols, S'.at_ i j = S.at_ i j) (h : Bordered S' B) : Bordered S B := by
  obtain ⟨g1, g2, g3⟩ := h
  refine ⟨g1.trans h1, g2.trans h2, fun i hi j hj => ?_⟩
  rw [g3 i (by omega) j (by omega), h1, h2, h3 i hi j hj]

/-- What a file shows depends on the annotations on the picture only. -/
theorem variantShows_congr {c c' : ClsMat} {x x' : InstMat} (hc : Agree c.bdry c'.bdry c.seg c'.seg c.present c'.present)
    (hx : Agree x.bdry x'.bdry x.seg x'.seg x.cats x'.cats) {v : Variant} {d : SbdContent} (h : VariantShows c' x' v d) :
    VariantShows c x v d := by
  have hE := fun r B inst l p => sbdEdge_congr hx.rows hx.cols hx.seg r B inst x.cats c.present l p
  cases v with
  | edge thin inst =>
    cases d with
    | edges im =>
      cases thin
      · obtain ⟨B, b1, b2, b3, b4⟩ := h
        refine ⟨B, bordered_congr hc.rows hc.cols hc.seg b1, b2, b3, fun i hi j hj t ht => ?_⟩
        rw [b4 i hi j hj t ht, hx.cats, hc.cats, hE]
      · obtain ⟨B, b1, b2, b3, b4, b5⟩ := h
        refine ⟨B, bordered_congr hc.rows hc.cols hc.seg b1, b2, b3, b4, fun t ht => ?_⟩
        obtain ⟨full, f1, f2, f3⟩ := b5 t ht
        refine ⟨full, fun i hi j hj => ?_, f2, f3⟩
        rw [f1 i hi j hj, hx.cats, hc.cats, hE]
    | map im => cases thin <;> exact h.elim
    | text s => cases thin <;> exact h.elim
  | labels =>
    cases d with
    | map im => exact bordered_congr hc.rows hc.cols hc.seg h
    | edges im => exact h.elim
    | text s => exact h.elim
  | trainIds =>
    cases d with
    | map im =>
      obtain ⟨B, b1, b2⟩ := h
      exact ⟨B, bordered_congr hc.rows hc.cols hc.seg b1, b2⟩
    | edges im => exact h.elim
    | text s => exact h.elim
  | instances =>
    cases d with
    | map im =>
      obtain ⟨n1, n2, n3⟩ := h
      refine ⟨n1.trans hx.rows, n2.trans hx.cols, fun i hi j hj => ?_⟩
      have := n3 i (by rw [hx.rows]; exact hi) j (by rw [hx.cols]; exact hj)
      rw [hx.cats, hc.cats, hx.seg i hi j hj] at this
      exact this
    | edges im => exact h.elim
    | text s => exact h.elim

theorem reannoShows_congr {c c' : ClsMat} {x x' : InstMat} (hc : Agree c.bdry c'.bdry c.seg c'.seg c.present c'.present)
    (hx : Agree x.bdry x'.bdry x.seg x'.seg x.cats x'.cats) (hf : ReannoFits c x) {inst : Bool} {im : Rgb}
    (h : ReannoShows c' x' inst im) : ReannoShows c x inst im := by
  obtain ⟨h1, h2, h3⟩ := h
  refine ⟨h1.trans hc.h, h2.trans hc.w, fun i hi j hj t ht => ?_⟩
  rw [h3 i (by rw [hc.h]; exact hi) j (by rw [hc.w]; exact hj) t ht, hc.n, hc.cats]
  refine and_congr_right fun htn => ?_
  rw [hc.bdry t htn i hi j hj]
  refine or_congr_right (and_congr_right fun _ => and_congr_right fun _ => ?_)
  rw [hx.bdry t (by rw [hf.n]; exact htn) i (by rw [hf.h]; exact hi) j (by rw [hf.w]; exact hj)]

theorem fits_congr {c c' : ClsMat} {x x' : InstMat} (hc : Agree c.bdry c'.bdry c.seg c'.seg c.present c'.present)
    (hx : Agree x.bdry x'.bdry x.seg x'.seg x.cats x'.cats) (h : InstFits x.seg x.cats c.present c.seg) :
    InstFits x'.seg x'.cats c'.present c'.seg := by
  refine ⟨by rw [hx.rows, hc.rows, h.rows], by rw [hx.cols, hc.cols, h.cols], ?_, ?_⟩
  · rw [hc.cats]; exact h.small
  · rw [hc.cats, hx.cats]; exact h.count

theorem reannoFits_congr {c c' : ClsMat} {x x' : InstMat} (hc : Agree c.bdry c'.bdry c.seg c'.seg c.present c'.present)
    (hx : Agree x.bdry x'.bdry x.seg x'.seg x.cats x'.cats) (h : ReannoFits c x) : ReannoFits c' x' := by
  refine ⟨?_, by rw [hx.n, hc.n, h.n], by rw [hx.h, hc.h, h.h], by rw [hx.w, hc.w, h.w], by rw [hc.n]; exact h.small, ?_⟩
  · rw [hc.cats, hx.cats]; exact h.cats
  · rw [hc.cats, hc.n]; exact h.present

/-! ## Loading -/

/-- What the loaders make of the two files of a sample. -/
theorem load_pair {env : MatEnv} {ex : Str → Bool} {dir k1 k2 n : Str} {c : ClsMat} {x : InstMat}
    (h : MatPair env ex dir k1 k2 n c x) (text : Str → Option Str) (new : Bool)
    (hnew : new = true → env.newReader = true ∧ 2 ≤ c.bdry.n ∧ 2 ≤ c.bdry.h ∧ 2 ≤ c.bdry.w ∧ 2 ≤ x.bdry.n ∧
      2 ≤ x.bdry.h ∧ 2 ≤ x.bdry.w) :
    ∃ m : ClsMat × InstMat,
      (filesOf env ex text).cls new (slashed [dir, k1, n ++ ".mat".toList]) = .ok m.1 ∧
      (filesOf env ex text).inst new (slashed [dir, k2, n ++ ".mat".toList]) = .ok m.2 ∧
      Agree c.bdry m.1.bdry c.seg m.1.seg c.present m.1.present ∧ Agree x.bdry m.2.bdry x.seg m.2.seg x.cats m.2.cats := by
  obtain ⟨f, f1, f2⟩ := h.cls
  obtain ⟨g, g1, g2⟩ := h.inst
  have key : ∃ r r', loadCls env (slashed [dir, k1, n ++ ".mat".toList]) new = .ok r ∧
      loadInst env (slashed [dir, k2, n ++ ".mat".toList]) new = .ok r' ∧ Spec.Returns r c.bdry c.seg c.present ∧
      Spec.Returns r' x.bdry x.seg x.cats := by
    cases new
    · obtain ⟨r, r1, r2⟩ := (C80_cls env _ f c f1 f2).1
      obtain ⟨r', s1, s2⟩ := (C80_inst env _ g x g1 g2).1
      exact ⟨r, r', r1, s1, r2, s2⟩
    · obtain ⟨h0, h1, h2, h3, h4, h5, h6⟩ := hnew rfl
      obtain ⟨r, r1, r2⟩ := (C80_cls env _ f c f1 f2).2 h0 h1 h2 h3
      obtain ⟨r', s1, s2⟩ := (C80_inst env _ g x g1 g2).2 h0 h4 h5 h6
      exact ⟨r, r', r1, s1, r2, s2⟩
  obtain ⟨r, r', e1, e2, e3, e4⟩ := key
  refine ⟨(clsOf r, instOf r'), ?_, ?_, agree_of e3, agree_of e4⟩
  · show (loadCls env _ new).map clsOf = _
    rw [e1]; rfl
  · show (loadInst env _ new).map instOf = _
    rw [e2]; rfl

theorem getSamples_lines {fs : SbdFs} {p eol : Str} {l : List Str} (he : eol = ['\n'] ∨ eol = ['\r', '\n'] ∨ eol = ['\r'])
    (ht : fs.text p = some (linesText eol l)) (hl : ∀ n ∈ l, NoEol n) : getSamples fs p = .ok l := by
  have := ((C54_samples fs p).2 eol he l [] (by rw [ht, List.append_nil])).1 hl ⟨by simp, by simp⟩
  rw [this]
  simp

/-- The directory as the conversion sees it. -/
theorem sbdTree_of {env : MatEnv} {ex : Str → Bool} {text : Str → Option Str} {a : SbdArgs} {train val : List Str}
    {mats : Str → ClsMat × InstMat} (h : SbdDisk env ex text a train val mats) :
    ∃ mats' : Str → ClsMat × InstMat, SbdTree (filesOf env ex text) a train val mats' ∧
      ∀ n ∈ train ++ val, Agree (mats n).1.bdry (mats' n).1.bdry (mats n).1.seg (mats' n).1.seg (mats n).1.present
          (mats' n).1.present ∧
        Agree (mats n).2.bdry (mats' n).2.bdry (mats n).2.seg (mats' n).2.seg (mats n).2.cats (mats' n).2.cats := by
  have ex1 : ∀ n, ∃ m : ClsMat × InstMat, n ∈ train ++ val →
      (filesOf env ex text).cls false (slashed [a.root, "cls_orig".toList, n ++ ".mat".toList]) = .ok m.1 ∧
      (filesOf env ex text).inst false (slashed [a.root, "inst_orig".toList, n ++ ".mat".toList]) = .ok m.2 ∧
      Agree (mats n).1.bdry m.1.bdry (mats n).1.seg m.1.seg (mats n).1.present m.1.present ∧
      Agree (mats n).2.bdry m.2.bdry (mats n).2.seg m.2.seg (mats n).2.cats m.2.cats := by
    intro n
    by_cases hn : n ∈ train ++ val
    · obtain ⟨m, hm⟩ := load_pair (h.files n hn) text false (by simp)
      exact ⟨m, fun _ => hm⟩
    · exact ⟨mats n, fun hn' => absurd hn' hn⟩
  choose mats' hm using ex1
  obtain ⟨e1, he1, t1⟩ := h.trainFile
  obtain ⟨e2, he2, t2⟩ := h.valFile
  refine ⟨mats', ⟨⟨h.root, h.out, h.outRel, h.clsDir, h.instDir, fun n hn => ?_⟩,
    getSamples_lines he1 t1 fun n hn => h.lines n (by simp [hn]),
    getSamples_lines he2 t2 fun n hn => h.lines n (by simp [hn]), h.trainNe, h.valNe⟩, fun n hn => (hm n hn).2.2⟩
  obtain ⟨m1, m2, m3, m4⟩ := hm n hn
  have hf := h.files n hn
  exact ⟨hf.relName, hf.exCls, hf.exInst, m1, m2, by rw [m3.rows]; exact h.rows n hn, fits_congr m3 m4 (h.fits n hn)⟩

theorem wrote_congr {a : SbdArgs} {l : List Str} {mats mats' : Str → ClsMat × InstMat} {w : List (Str × SbdContent)}
    (hag : ∀ n ∈ l, Agree (mats n).1.bdry (mats' n).1.bdry (mats n).1.seg (mats' n).1.seg (mats n).1.present
          (mats' n).1.present ∧
        Agree (mats n).2.bdry (mats' n).2.bdry (mats n).2.seg (mats' n).2.seg (mats n).2.cats (mats' n).2.cats)
    (h : WroteSamples a l mats' w) : WroteSamples a l mats w := by
  refine ⟨fun f d hfd => ?_, h.2⟩
  obtain ⟨n, hn, v, h1, h2⟩ := h.1 f d hfd
  exact ⟨n, hn, v, h1, variantShows_congr (hag n hn).1 (hag n hn).2 h2⟩

theorem mapM_names (l : List Str) : (l.map PyVal.str).mapM nameOf = .ok l := by
  induction l with
  | nil => rfl
  | cons n l ih =>
    rw [List.map_cons, List.mapM_cons, ih]
    rfl

/-- The directory of re-annotated samples as the conversion sees it. -/
theorem reannoDir_of {env : MatEnv} {ex : Str → Bool} {dir : Str} {names : List Str}
    {mats : Str → ClsMat × InstMat} (text : Str → Option Str) (hr : env.newReader = true) (h : ReannoDisk env ex dir names mats) :
    ∃ mats' : Str → ClsMat × InstMat, ReannoDir (filesOf env ex text) dir names mats' ∧
      ∀ n ∈ names, ∀ inst im, ReannoShows (mats' n).1 (mats' n).2 inst im → ReannoShows (mats n).1 (mats n).2 inst im := by
  have ex1 : ∀ n, ∃ m : ClsMat × InstMat, n ∈ names →
      (filesOf env ex text).cls true (slashed [dir, "cls".toList, n ++ ".mat".toList]) = .ok m.1 ∧
      (filesOf env ex text).inst true (slashed [dir, "inst".toList, n ++ ".mat".toList]) = .ok m.2 ∧
      Agree (mats n).1.bdry m.1.bdry (mats n).1.seg m.1.seg (mats n).1.present m.1.present ∧
      Agree (mats n).2.bdry m.2.bdry (mats n).2.seg m.2.seg (mats n).2.cats m.2.cats := by
    intro n
    by_cases hn : n ∈ names
    · have hf := h.fits n hn
      have hb := h.big n hn
      obtain ⟨m, hm⟩ := load_pair (h.files n hn) text true (fun _ => ⟨hr, h.classes n hn, hb.1, hb.2,
        by rw [hf.n]; exact h.classes n hn, by rw [hf.h]; exact hb.1, by rw [hf.w]; exact hb.2⟩)
      exact ⟨m, fun _ => hm⟩
    · exact ⟨mats n, fun hn' => absurd hn' hn⟩
  choose mats' hm using ex1
  obtain ⟨f, v, l1, l2, l3⟩ := h.list
  refine ⟨mats', ⟨h.here, h.clsDir, h.instDir, ?_, fun n hn => ?_⟩, fun n hn inst im hs => ?_⟩
  · show (do let l ← reannoNames env _ false; l.mapM nameOf) = _
    rw [((C80_names env _ f v names l1 l2 l3).1 h.many).1]
    show (names.map PyVal.str).mapM nameOf = _
    exact mapM_names names
  · obtain ⟨m1, m2, m3, m4⟩ := hm n hn
    have hf := h.files n hn
    exact ⟨⟨hf.relName, hf.exCls, hf.exInst, m1, m2⟩, reannoFits_congr m3 m4 (h.fits n hn)⟩
  · obtain ⟨m1, m2, m3, m4⟩ := hm n hn
    exact reannoShows_congr m3 m4 (h.fits n hn) hs

/-! ## The script on its files -/

/-- C81: the conversion without `--reanno`, from the MATLAB files on. With an exact distance transform and a complete
directory, the run ends without an exception and writes exactly the seven pictures of every listed sample, each
showing what the MATLAB files of the sample say. -/
theorem C81_script (lib : DTLib) (env : MatEnv) (ex : Str → Bool) (text : Str → Option Str) (a : SbdArgs) (train val : List Str)
    (mats : Str → ClsMat × InstMat) (h : SbdDisk env ex text a train val mats) (H2 : SoundDT lib true 0 2)
    (H1 : SoundDT lib true 0 1) (hre : a.reanno = false) :
    ∃ F, ∀ fuel, F ≤ fuel → ∃ w, convertSbd lib fuel (filesOf env ex text) a = some ⟨w, none⟩ ∧
      WroteSamples a (train ++ val) mats w := by
  obtain ⟨mats', ht, hag⟩ := sbdTree_of h
  obtain ⟨F, hF⟩ := C54_script lib _ a train val mats' ht H2 H1 hre
  refine ⟨F, fun fuel hf => ?_⟩
  obtain ⟨w, w1, w2⟩ := hF fuel hf
  exact ⟨w, w1, wrote_congr hag w2⟩

/-- C81: the same with `--reanno` and the new reader installed: first the seven pictures of the listed samples, then two
pictures of every raw and of every thin re-annotated sample, showing the boundaries in their files; last the list of the raw
samples as text. -/
theorem C81_reanno (lib : DTLib) (env : MatEnv) (ex : Str → Bool) (text : Str → Option Str) (a : SbdArgs) (train val : List Str)
    (mats : Str → ClsMat × InstMat) (h : SbdDisk env ex text a train val mats) (H2 : SoundDT lib true 0 2)
    (H1 : SoundDT lib true 0 1) (hre : a.reanno = true) (hr : env.newReader = true) (rawNames thinNames : List Str)
    (rawMats thinMats : Str → ClsMat × InstMat)
    (hraw : ReannoDisk env ex (slashed [a.root, "gt_reanno_raw".toList]) rawNames rawMats)
    (hthin : ReannoDisk env ex (slashed [a.root, "gt_reanno_thin".toList]) thinNames thinMats) :
    ∃ F, ∀ fuel, F ≤ fuel → ∃ w r t, convertSbd lib fuel (filesOf env ex text) a =
        some ⟨w ++ r ++ t ++ [(slashed [a.root, "reanno_val.txt".toList], .text (linesText ['\n'] rawNames))], none⟩ ∧
      WroteSamples a (train ++ val) mats w ∧ WroteReanno a false rawNames rawMats r ∧
      WroteReanno a true thinNames thinMats t := by
  obtain ⟨mats', ht, hag⟩ := sbdTree_of h
  obtain ⟨rm, r1, r2⟩ := reannoDir_of text hr hraw
  obtain ⟨tm, t1, t2⟩ := reannoDir_of text hr hthin
  obtain ⟨F, hF⟩ := C54_reanno lib _ a train val mats' ht H2 H1 hre rawNames thinNames rm tm r1 t1
  refine ⟨F, fun fuel hf => ?_⟩
  obtain ⟨w, r, t, e, w1, w2, w3⟩ := hF fuel hf
  refine ⟨w, r, t, e, wrote_congr hag w1, ⟨fun f d hfd => ?_, w2.2⟩, ⟨fun f d hfd => ?_, w3.2⟩⟩
  · obtain ⟨n, hn, inst, im, g1, g2, g3⟩ := w2.1 f d hfd
    exact ⟨n, hn, inst, im, g1, g2, r2 n hn inst im g3⟩
  · obtain ⟨n, hn, inst, im, g1, g2, g3⟩ := w3.1 f d hfd
    exact ⟨n, hn, inst, im, g1, g2, t2 n hn inst im g3⟩

/-! ## Failures -/

/-- C81: with a missing `test.mat` (`AssertionError`), one without the list (`KeyError`) and one with a single name
(`TypeError`), `--reanno` fails after the two splits have been converted. -/
theorem C81_reanno_fails (lib : DTLib) (env : MatEnv) (ex : Str → Bool) (text : Str → Option Str) (a : SbdArgs)
    (train val : List Str) (mats : Str → ClsMat × InstMat) (h : SbdDisk env ex text a train val mats)
    (H2 : SoundDT lib true 0 2) (H1 : SoundDT lib true 0 1) (hre : a.reanno = true)
    (hex : ∀ d ∈ ["gt_reanno_raw".toList, "gt_reanno_thin".toList], ex (slashed [a.root, d]) = true) (e : PyErr)
    (hbad : (env.files (slashed [a.root, "gt_reanno_raw".toList, "test.mat".toList]) = none ∧ e = .assertionError) ∨
      (∃ f, env.files (slashed [a.root, "gt_reanno_raw".toList, "test.mat".toList]) = some f ∧
        (("listTest".toList ∉ f.names ∧ e = .keyError) ∨
          ∃ n, (∃ v, HasVar f "listTest".toList v ∧ IsNames v [n]) ∧ e = .typeError))) :
    ∃ F, ∀ fuel, F ≤ fuel → ∃ w, convertSbd lib fuel (filesOf env ex text) a = some ⟨w, some e⟩ ∧
      WroteSamples a (train ++ val) mats w := by
  obtain ⟨mats', ht, hag⟩ := sbdTree_of h
  have hn : (filesOf env ex text).names (slashed [a.root, "gt_reanno_raw".toList, "test.mat".toList]) = .error e := by
    show (do let l ← reannoNames env _ false; l.mapM nameOf) = _
    rcases hbad with ⟨h1, rfl⟩ | ⟨f, h1, h2⟩
    · rw [((C80_no_file env _ false).1 (Or.inl h1)).2.2]; rfl
    · rcases h2 with ⟨h2, rfl⟩ | ⟨n, ⟨v, v1, v2⟩, rfl⟩
      · rw [((C80_no_file env _ false).2 f h1 (by simp)).2.2 h2]; rfl
      · rw [((C80_names env _ f v [n] h1 v1 v2).2 rfl).1]; rfl
  obtain ⟨F, hF⟩ := C54_no_test_mat lib _ a train val mats' ht H2 H1 hre hex e (Or.inl hn)
  refine ⟨F, fun fuel hf => ?_⟩
  obtain ⟨w, w1, w2⟩ := hF fuel hf
  exact ⟨w, w1, wrote_congr hag w2⟩

/-- The five pictures the raw pass writes for a sample. -/
def rawVariants : List Variant := [.edge false false, .edge false true, .labels, .trainIds, .instances]

theorem routine_unreadable (lib : DTLib) (fuel : Nat) (fs : SbdFs) (o : RoutineOpts) (name : Str) (hd : DirArg o.dataDir)
    (hn : Relative name) (e : PyErr)
    (hex : ∀ p ∈ [o.saveDir, slashed [o.dataDir, "cls_orig".toList], slashed [o.dataDir, "inst_orig".toList],
        slashed [o.dataDir, "cls_orig".toList, name ++ ".mat".toList],
        slashed [o.dataDir, "inst_orig".toList, name ++ ".mat".toList]], fs.ex p = true)
    (hbad : fs.cls false (slashed [o.dataDir, "cls_orig".toList, name ++ ".mat".toList]) = .error e ∨
      ∃ c, fs.cls false (slashed [o.dataDir, "cls_orig".toList, name ++ ".mat".toList]) = .ok c ∧ 22 ≤ c.seg.rows ∧
        fs.inst false (slashed [o.dataDir, "inst_orig".toList, name ++ ".mat".toList]) = .error e) :
    routine lib fuel fs o name = .error e := by
  have hnm := relative_append hn dotMat
  have a0 := pjoin_slash hd clsOrig_dir.2
  have a1 := pjoin_slash hd instOrig_dir.2
  have a2 := pjoin_slash3 hd clsOrig_dir.1 clsOrig_dir.2 hnm
  have a3 := pjoin_slash3 hd instOrig_dir.1 instOrig_dir.2 hnm
  simp only [List.mem_cons, List.not_mem_nil, or_false, forall_eq_or_imp, forall_eq] at hex
  obtain ⟨x0, x1, x2, x3, x4⟩ := hex
  unfold routine
  simp only [checkPath_ok x0, now_bind]
  rw [checkPath_ok (by rw [a0]; exact x1), now_bind, checkPath_ok (by rw [a1]; exact x2), now_bind,
    checkPath_ok (by rw [a2]; exact x3), now_bind, checkPath_ok (by rw [a3]; exact x4), now_bind, a2, a3]
  rcases hbad with h | ⟨c, h1, h2, h3⟩
  · rw [h]; rfl
  · rw [h1, now_bind, h3]
    obtain ⟨m, hm, -⟩ := (C24_onehot ⟨(addIgnorePixel c.seg 5 21).rows, (addIgnorePixel c.seg 5 21).cols,
      fun i j => ((addIgnorePixel c.seg 5 21).at_ i j : Int)⟩ sbdLabelIds).2 (by decide) (by
        rw [show sbdLabelIds.length = 22 by decide]
        exact h2)
    have : mat2np lib fuel c (some (.error e)) (if o.thin then 1 else o.radius) o.thin 21 = .error e := by
      unfold mat2np
      simp only [hm, now_bind]
      rfl
    rw [this]
    rfl

/-- C81: a training sample whose MATLAB files exist but cannot be read ends the run with the loader's exception (the
instance file is read after the class file, if that has 22 rows at least): the samples listed before it have their five
raw pictures, no other file is written. -/
theorem C81_unreadable (lib : DTLib) (fs : SbdFs) (a : SbdArgs) (before after : List Str) (n : Str)
    (mats : Str → ClsMat × InstMat) (h : SbdBase fs a before mats) (H2 : SoundDT lib true 0 2)
    (hread : getSamples fs (slashed [a.root, "train.txt".toList]) = .ok (before ++ n :: after)) (hn : Relative n)
    (hex : ∀ k ∈ ["cls_orig".toList, "inst_orig".toList], fs.ex (slashed [a.root, k, n ++ ".mat".toList]) = true) (e : PyErr)
    (hbad : fs.cls false (slashed [a.root, "cls_orig".toList, n ++ ".mat".toList]) = .error e ∨
      ∃ c, fs.cls false (slashed [a.root, "cls_orig".toList, n ++ ".mat".toList]) = .ok c ∧ 22 ≤ c.seg.rows ∧
        fs.inst false (slashed [a.root, "inst_orig".toList, n ++ ".mat".toList]) = .error e) (fuel : Nat) :
    ∃ w, convertSbd lib fuel fs a = some ⟨w, some e⟩ ∧
      (∀ f d, (f, d) ∈ w → ∃ m ∈ before, ∃ v ∈ rawVariants, f = outFile a (variantName m v) ∧
        VariantShows (mats m).1 (mats m).2 v d) ∧
      ∀ m ∈ before, ∀ v ∈ rawVariants, ∃ d, (outFile a (variantName m v), d) ∈ w := by
  have raw : ∀ m : Str, ∃ out, m ∈ before →
      routine lib fuel (withDir fs (saveDirOf a)) (scriptOpts a false) m = .ok (some out) ∧
      ∃ e0 e1 B T N, out = edgeFiles (scriptOpts a false) m e0 e1 ++ mapFiles (scriptOpts a false) m B T N ∧
        Bordered (mats m).1.seg B ∧ RawEdges 2 B none (mats m).1.present e0 ∧
        RawEdges 2 B (some ((mats m).2.seg, (mats m).2.cats)) (mats m).1.present e1 ∧ TrainMap B T ∧
        InstMap (mats m).2.seg (mats m).2.cats (mats m).1.present N := by
    intro m
    by_cases hm : m ∈ before
    · have hs := h.samples m hm
      obtain ⟨e0, e1, B, T, N, r1, r2⟩ := C54_raw lib fuel 2 (by exact_mod_cast H2) _ _ m _ _
        (matFiles_of h false hm) rfl rfl hs.rows hs.fits
      exact ⟨_, fun _ => ⟨r1, e0, e1, B, T, N, rfl, by exact_mod_cast r2⟩⟩
    · exact ⟨[], fun hm' => absurd hm' hm⟩
  choose ro hro using raw
  have hfail : routine lib fuel (withDir fs (saveDirOf a)) (scriptOpts a false) n = .error e := by
    refine routine_unreadable lib fuel _ _ n h.root hn e ?_ hbad
    have hex' : ∀ p, fs.ex p = true → (withDir fs (saveDirOf a)).ex p = true := by
      intro p hp
      simp [withDir, hp]
    intro p hp
    simp only [List.mem_cons, List.not_mem_nil, or_false] at hp
    rcases hp with rfl | rfl | rfl | rfl | rfl
    · show (decide (saveDirOf a = saveDirOf a) || fs.ex (saveDirOf a)) = true
      rw [decide_eq_true rfl, Bool.true_or]
    · exact hex' _ h.clsDir
    · exact hex' _ h.instDir
    · exact hex' _ (hex _ (by simp))
    · exact hex' _ (hex _ (by simp))
  have hjobs := runJobs_fail (routine lib fuel (withDir fs (saveDirOf a)) (scriptOpts a false)) ro before n after e
    (fun m hm => (hro m hm).1) hfail
  refine ⟨before.flatMap ro, ?_, ?_, ?_⟩
  · have hdot : Relative ".txt".toList := by unfold Relative; decide
    have hsplit : runSplit lib fuel (withDir fs (saveDirOf a)) a "train".toList = some ⟨before.flatMap ro, some e⟩ := by
      unfold runSplit
      rw [pjoin_slash h.root (relative_append train_rel.1 hdot)]
      have hg : getSamples (withDir fs (saveDirOf a)) (slashed [a.root, "train".toList ++ ".txt".toList]) =
        .ok (before ++ n :: after) := hread
      rw [hg]
      have hpos : decide (0 < (before ++ n :: after).length) = true := by
        rw [decide_eq_true_eq]; simp
      rw [show ((do
          let l' ← (Except.ok (before ++ n :: after) : Except PyErr (List Str))
          assert (decide (0 < l'.length))
          .ok l') : Except PyErr (List Str)) = .ok (before ++ n :: after) by
        show (do assert (decide (0 < (before ++ n :: after).length)); .ok (before ++ n :: after)) = _
        rw [hpos]; rfl]
      show andThen (runJobs _ _) (runJobs _ _) = _
      rw [hjobs]
      rfl
    unfold convertSbd
    simp only [hsplit, andThen]
  · intro f d hfd
    obtain ⟨m, hm, hmem⟩ := List.mem_flatMap.1 hfd
    obtain ⟨-, e0, e1, B, T, N, hout, b1, b2, b3, b4, b5⟩ := hro m hm
    rw [hout] at hmem
    simp only [edgeFiles, mapFiles, show ∀ x, slashed [(scriptOpts a false).saveDir, x] = outFile a x from save_file h,
      List.mem_append, List.mem_cons, List.not_mem_nil, or_false, Prod.mk.injEq] at hmem
    rcases hmem with (⟨rfl, rfl⟩ | ⟨rfl, rfl⟩) | ⟨rfl, rfl⟩ | ⟨rfl, rfl⟩ | ⟨rfl, rfl⟩
    · exact ⟨m, hm, .edge false false, by simp [rawVariants], congrArg _ (name_edge (a := a) false false m), B, b1, b2⟩
    · exact ⟨m, hm, .edge false true, by simp [rawVariants], congrArg _ (name_edge (a := a) false true m), B, b1, b3⟩
    · exact ⟨m, hm, .labels, by simp [rawVariants], rfl, b1⟩
    · exact ⟨m, hm, .trainIds, by simp [rawVariants], rfl, B, b1, b4⟩
    · exact ⟨m, hm, .instances, by simp [rawVariants], rfl, b5⟩
  · intro m hm v hv
    obtain ⟨-, e0, e1, B, T, N, hout, -⟩ := hro m hm
    have inRaw : ∀ y, y ∈ ro m → y ∈ before.flatMap ro := fun y hy => List.mem_flatMap.2 ⟨m, hm, hy⟩
    have nm : ∀ x, slashed [(scriptOpts a false).saveDir, x] = outFile a x := save_file h
    simp only [rawVariants, List.mem_cons, List.not_mem_nil, or_false] at hv
    rcases hv with rfl | rfl | rfl | rfl | rfl
    · rw [← name_edge (a := a)]
      exact ⟨.edges e0, inRaw _ (by rw [hout]; simp [edgeFiles, nm])⟩
    · rw [← name_edge (a := a)]
      exact ⟨.edges e1, inRaw _ (by rw [hout]; simp [edgeFiles, nm])⟩
    · exact ⟨.map B, inRaw _ (by rw [hout]; simp only [mapFiles, nm]; simp [variantName, scriptOpts])⟩
    · exact ⟨.map T, inRaw _ (by rw [hout]; simp only [mapFiles, nm]; simp [variantName, scriptOpts])⟩
    · exact ⟨.map N, inRaw _ (by rw [hout]; simp only [mapFiles, nm]; simp [variantName, scriptOpts])⟩

/-- C81: without the new reader `--reanno` cannot convert a single re-annotated sample: `AssertionError` after the two splits
have been converted (unless the list is empty). -/
theorem C81_no_reader (lib : DTLib) (env : MatEnv) (ex : Str → Bool) (text : Str → Option Str) (a : SbdArgs)
    (train val : List Str) (mats : Str → ClsMat × InstMat) (h : SbdDisk env ex text a train val mats)
    (H2 : SoundDT lib true 0 2) (H1 : SoundDT lib true 0 1) (hre : a.reanno = true) (hr : env.newReader = false)
    (rawNames thinNames : List Str) (rawMats thinMats : Str → ClsMat × InstMat)
    (hraw : ReannoDisk env ex (slashed [a.root, "gt_reanno_raw".toList]) rawNames rawMats)
    (hthin : ReannoDisk env ex (slashed [a.root, "gt_reanno_thin".toList]) thinNames thinMats) (hne : rawNames ≠ []) :
    ∃ F, ∀ fuel, F ≤ fuel → ∃ w, convertSbd lib fuel (filesOf env ex text) a = some ⟨w, some .assertionError⟩ ∧
      WroteSamples a (train ++ val) mats w := by
  obtain ⟨mats', ht, hag⟩ := sbdTree_of h
  obtain ⟨F, hF⟩ := exists_fuel (train ++ val) fun n => (mats' n).1.seg.rows * (mats' n).1.seg.cols + 1
  refine ⟨F, fun fuel hfuel => ?_⟩
  obtain ⟨w1, w2, a1, a2, b1, b2⟩ := splits_ok ht H2 H1 fuel (fun n hn => (hF n hn).trans hfuel)
  refine ⟨w1 ++ w2, ?_, wrote_congr hag (wrote_append b1 b2)⟩
  obtain ⟨⟨dr, rr⟩, ⟨dt, rt⟩, rtest, rval⟩ := reanno_dirs
  have hex : ∀ p, ex p = true → (withDir (filesOf env ex text) (saveDirOf a)).ex p = true := by
    intro p hp
    show (decide (p = saveDirOf a) || ex p) = true
    rw [hp, Bool.or_true]
  have hnames : ∀ {dir : Str} {names : List Str} {m : Str → ClsMat × InstMat}, DirArg dir → ReannoDisk env ex dir names m →
      reannoSamples (withDir (filesOf env ex text) (saveDirOf a)) (pjoin dir "test.mat".toList) = .ok names := by
    intro dir names m hd hx
    rw [pjoin_slash hd rtest]
    obtain ⟨f, v, l1, l2, l3⟩ := hx.list
    show (do let l ← reannoNames env _ false; l.mapM nameOf) = _
    rw [((C80_names env _ f v names l1 l2 l3).1 hx.many).1]
    exact mapM_names names
  have hjob : ∀ n ∈ rawNames, reannoRoutine (withDir (filesOf env ex text) (saveDirOf a)) (slashed [a.root, "gt_reanno_raw".toList])
      (saveDirOf a) "_reanno_raw_edge.png".toList "_reanno_raw_isedge.png".toList n = .error .assertionError := by
    intro n hn
    have hf := hraw.files n hn
    have hd : DirArg (slashed [a.root, "gt_reanno_raw".toList]) := dirArg_slash dr
    obtain ⟨d1, d2, d3, d4⟩ := cls_dir
    have hnm := relative_append hf.relName dotMat
    have e0 := pjoin_slash hd d2
    have e1 := pjoin_slash hd d4
    have e2 := pjoin_slash3 hd d1 d2 hnm
    have e3 := pjoin_slash3 hd d3 d4 hnm
    unfold reannoRoutine
    rw [checkPath_ok (show (decide (saveDirOf a = saveDirOf a) || ex (saveDirOf a)) = true by rw [decide_eq_true rfl, Bool.true_or]),
      checkPath_ok (by rw [e0]; exact hex _ hraw.clsDir)]
    simp only [bind, Except.bind]
    rw [checkPath_ok (by rw [e1]; exact hex _ hraw.instDir)]
    simp only
    rw [checkPath_ok (by rw [e2]; exact hex _ hf.exCls)]
    simp only
    rw [checkPath_ok (by rw [e3]; exact hex _ hf.exInst)]
    simp only
    have hc : (withDir (filesOf env ex text) (saveDirOf a)).cls true (pjoin (pjoin (slashed [a.root, "gt_reanno_raw".toList]) "cls".toList)
        (n ++ ".mat".toList)) = .error .assertionError := by
      show (loadCls env _ true).map clsOf = _
      rw [((C80_no_file env _ true).1 (Or.inr ⟨rfl, hr⟩)).1]
      rfl
    rw [hc]
    rfl
  have hrun : runReanno (withDir (filesOf env ex text) (saveDirOf a)) a = some ⟨[], some .assertionError⟩ := by
    unfold runReanno
    rw [pjoin_slash h.root rr, pjoin_slash h.root rt, checkPath_ok (hex _ hraw.here), checkPath_ok (hex _ hthin.here)]
    simp only [bind, Except.bind]
    rw [hnames (dirArg_slash dr) hraw, hnames (dirArg_slash dt) hthin]
    simp only [reading]
    cases rawNames with
    | nil => exact absurd rfl hne
    | cons n l =>
      rw [show runJobs _ (n :: l) = some ⟨[], some .assertionError⟩ from
        runJobs_fail _ (fun _ => []) [] n l _ (by simp) (hjob n (by simp))]
      rfl
  unfold convertSbd
  simp only [a1, a2, hre, if_true, hrun, andThen, Option.map_some, List.append_nil]

/-! ## Every annotation can be stored -/

/-- The sparse matrix of a class. -/
noncomputable def planeCsc (b : MLEdges) (k : Nat) : Csc :=
  (C80_every_picture b.h b.w fun i j => if b.at_ k i j then 1 else 0).choose

noncomputable def stackVal (b : MLEdges) : MVal := .cell b.n 1 fun k _ => .sparse (planeCsc b k)

theorem stackVal_ok (b : MLEdges) : IsStack (stackVal b) b := by
  refine ⟨_, rfl, fun k hk => ⟨_, rfl, ?_⟩⟩
  obtain ⟨h1, h2, h3⟩ := (C80_every_picture b.h b.w fun i j => if b.at_ k i j then 1 else 0).choose_spec
  exact ⟨h1, h2, h3⟩

/-- A MAT-file with a class annotation, an instance annotation and a list of names. -/
noncomputable def matFile (c : ClsMat) (x : InstMat) (l : List Str) : MFile where
  names := ["GTcls".toList, "GTinst".toList, "listTest".toList]
  vals k :=
    if k = 0 then .struct ["Boundaries".toList, "Segmentation".toList, "CategoriesPresent".toList] fun k =>
      if k = 0 then stackVal c.bdry else if k = 1 then .num c.seg.rows c.seg.cols fun i j => c.seg.at_ i j
      else .num 1 c.present.length fun _ k => c.present.getD k 0
    else if k = 1 then .struct ["Segmentation".toList, "Boundaries".toList, "Categories".toList] fun k =>
      if k = 0 then .num x.seg.rows x.seg.cols fun i j => x.seg.at_ i j else if k = 1 then stackVal x.bdry
      else .num 1 x.cats.length fun _ k => x.cats.getD k 0
    else .cell l.length 1 fun k _ => .char [l.getD k []]

theorem matFile_ok (c : ClsMat) (x : InstMat) (l : List Str) (hc : c.seg.rows = c.bdry.h ∧ c.seg.cols = c.bdry.w)
    (hx : x.seg.rows = x.bdry.h ∧ x.seg.cols = x.bdry.w) :
    IsClsFile (matFile c x l) c ∧ IsInstFile (matFile c x l) x ∧ ∃ v, HasVar (matFile c x l) "listTest".toList v ∧ IsNames v l := by
  have h1 : ["GTcls".toList, "GTinst".toList, "listTest".toList].idxOf "GTcls".toList < 3 := by decide
  have h2 : ["GTcls".toList, "GTinst".toList, "listTest".toList].idxOf "GTinst".toList < 3 := by decide
  have h3 : ["GTcls".toList, "GTinst".toList, "listTest".toList].idxOf "listTest".toList < 3 := by decide
  exact ⟨⟨_, ⟨h1, rfl⟩, ⟨stackVal_ok _, ⟨_, rfl, fun i _ j _ => rfl⟩, Or.inl ⟨_, rfl, fun k _ => rfl⟩, hc.1, hc.2⟩⟩,
    ⟨_, ⟨h2, rfl⟩, ⟨stackVal_ok _, ⟨_, rfl, fun i _ j _ => rfl⟩, Or.inl ⟨_, rfl, fun k _ => rfl⟩, hx.1, hx.2⟩⟩,
    _, ⟨h3, rfl⟩, ⟨_, rfl, fun k _ => rfl⟩⟩

/-- C81: every class annotation and every instance annotation whose label map has the size of the boundaries, and every
list of names, is the content of some MAT-file. -/
theorem C81_every_annotation (c : ClsMat) (x : InstMat) (l : List Str) (hc : c.seg.rows = c.bdry.h ∧ c.seg.cols = c.bdry.w)
    (hx : x.seg.rows = x.bdry.h ∧ x.seg.cols = x.bdry.w) :
    ∃ f, IsClsFile f c ∧ IsInstFile f x ∧ ∃ v, HasVar f "listTest".toList v ∧ IsNames v l :=
  ⟨_, matFile_ok c x l hc hx⟩

/-! ## A concrete directory -/

/-- Every MATLAB file holds the annotation of the example, and the list of `a` and `b`. -/
noncomputable def exDiskEnv : MatEnv := ⟨fun _ => some (matFile exSbdMats.1 exSbdMats.2 ["a".toList, "b".toList]), true⟩

theorem exMatFile_ok : IsClsFile (matFile exSbdMats.1 exSbdMats.2 ["a".toList, "b".toList]) exSbdMats.1 ∧
    IsInstFile (matFile exSbdMats.1 exSbdMats.2 ["a".toList, "b".toList]) exSbdMats.2 ∧
    ∃ v, HasVar (matFile exSbdMats.1 exSbdMats.2 ["a".toList, "b".toList]) "listTest".toList v ∧ IsNames v ["a".toList, "b".toList] :=
  matFile_ok _ _ _ ⟨rfl, rfl⟩ ⟨rfl, rfl⟩

theorem exMatPair (env : MatEnv) (he : env.files = exDiskEnv.files) (dir k1 k2 n : Str) (hn : Relative n) :
    MatPair env (fun _ => true) dir k1 k2 n exSbdMats.1 exSbdMats.2 :=
  ⟨hn, rfl, rfl, ⟨_, congrFun he _, exMatFile_ok.1⟩, ⟨_, congrFun he _, exMatFile_ok.2.1⟩⟩

theorem exNames_rel : ∀ n ∈ ["a".toList, "b".toList], Relative n ∧ NoEol n := by unfold Relative NoEol; decide

theorem exSbdDisk (env : MatEnv) (he : env.files = exDiskEnv.files) (re : Bool) :
    SbdDisk env (fun _ => true) exSbdFs.text (exSbdArgs re) ["a".toList] ["b".toList] fun _ => exSbdMats where
  root := (exSbdBase re).root
  out := (exSbdBase re).out
  outRel := (exSbdBase re).outRel
  clsDir := rfl
  instDir := rfl
  trainFile := ⟨['\n'], Or.inl rfl, by show exSbdFs.text (slashed ["d".toList, "train.txt".toList]) = _; decide +kernel⟩
  valFile := ⟨['\n'], Or.inl rfl, by show exSbdFs.text (slashed ["d".toList, "val.txt".toList]) = _; decide +kernel⟩
  trainNe := by decide
  valNe := by decide
  lines n hn := (exNames_rel n hn).2
  files n hn := exMatPair env he _ _ _ n (exNames_rel n hn).1
  rows n hn := by decide
  fits n hn := exSbdFits

theorem exReannoDisk (env : MatEnv) (he : env.files = exDiskEnv.files) (dir : Str) :
    ReannoDisk env (fun _ => true) dir ["a".toList, "b".toList] fun _ => exSbdMats where
  here := rfl
  clsDir := rfl
  instDir := rfl
  list := by
    obtain ⟨v, h1, h2⟩ := exMatFile_ok.2.2
    exact ⟨_, v, congrFun he _, h1, h2⟩
  many := by decide
  files n hn := exMatPair env he _ _ _ n (exNames_rel n hn).1
  fits n hn := ⟨by decide, rfl, rfl, rfl, by decide, by decide⟩
  classes n hn := by decide
  big n hn := by decide

/-- With `--reanno`, with and without the new reader. -/
example : ∃ F, ∀ fuel, F ≤ fuel →
    (∃ t, convertSbd (refLib 2) fuel (filesOf exDiskEnv (fun _ => true) exSbdFs.text) (exSbdArgs true) = some t ∧ t.err = none ∧
      t.written.getLast? = some ("d/reanno_val.txt".toList, .text "a\nb\n".toList) ∧
      ∃ d, ("d/gtEval/b_reanno_thin_isedge.png".toList, d) ∈ t.written) ∧
    ∃ w, convertSbd (refLib 2) fuel (filesOf ⟨exDiskEnv.files, false⟩ (fun _ => true) exSbdFs.text) (exSbdArgs true) =
      some ⟨w, some .assertionError⟩ := by
  obtain ⟨F1, h1⟩ := C81_reanno (refLib 2) exDiskEnv _ _ (exSbdArgs true) _ _ _ (exSbdDisk exDiskEnv rfl true) exact2 exact1 rfl rfl
    ["a".toList, "b".toList] ["a".toList, "b".toList] _ _
    (exReannoDisk exDiskEnv rfl _) (exReannoDisk exDiskEnv rfl _)
  obtain ⟨F2, h2⟩ := C81_no_reader (refLib 2) ⟨exDiskEnv.files, false⟩ _ _ (exSbdArgs true) _ _ _ (exSbdDisk ⟨exDiskEnv.files, false⟩ rfl true) exact2 exact1 rfl rfl
    ["a".toList, "b".toList] ["a".toList, "b".toList] _ _
    (exReannoDisk ⟨exDiskEnv.files, false⟩ rfl _) (exReannoDisk ⟨exDiskEnv.files, false⟩ rfl _) (by decide)
  refine ⟨max F1 F2, fun fuel hf => ⟨?_, ?_⟩⟩
  · obtain ⟨w, r, t, g1, -, -, g2⟩ := h1 fuel (le_trans (le_max_left _ _) hf)
    refine ⟨_, g1, rfl, ?_, ?_⟩
    · simp only [List.getLast?_append, List.getLast?_singleton, Option.some_or, Option.some.injEq, Prod.mk.injEq]
      exact ⟨by decide, by rw [show linesText ['\n'] ["a".toList, "b".toList] = "a\nb\n".toList by decide]⟩
    · obtain ⟨d, hd⟩ := g2.2 "b".toList (by simp) true
      exact ⟨d, List.mem_append_left _ (List.mem_append_right _ hd)⟩
  · obtain ⟨w, g1, -⟩ := h2 fuel (le_trans (le_max_right _ _) hf)
    exact ⟨w, g1⟩

/-- Without `--reanno`. -/
example : ∃ F, ∀ fuel, F ≤ fuel → ∃ w, convertSbd (refLib 2) fuel (filesOf exDiskEnv (fun _ => true) exSbdFs.text) (exSbdArgs false) =
    some ⟨w, none⟩ ∧ ∃ d, ("d/gtEval/b_thin_isedge.png".toList, d) ∈ w := by
  obtain ⟨F, h⟩ := C81_script (refLib 2) exDiskEnv _ _ (exSbdArgs false) _ _ _ (exSbdDisk exDiskEnv rfl false) exact2 exact1 rfl
  refine ⟨F, fun fuel hf => ?_⟩
  obtain ⟨w, h1, h2⟩ := h fuel hf
  exact ⟨w, h1, h2.2 "b".toList (by simp) (.edge true true)⟩

theorem pick_else {α : Type} {p q : Str} {x y : α} (h : p ≠ q) : (if p = q then x else y) = y := if_neg h

/-- The same, but with a single name in the list of the raw re-annotated samples. -/
noncomputable def exOneName : MatEnv :=
  ⟨fun p => if p = "d/gt_reanno_raw/test.mat".toList then some (exNamesFile ["b".toList]) else exDiskEnv.files p, true⟩

theorem exOneName_pos : exOneName.files (slashed ["d".toList, "gt_reanno_raw".toList, "test.mat".toList]) =
    some (exNamesFile ["b".toList]) :=
  rfl

theorem exOneName_neg {p : Str} (h : p ≠ "d/gt_reanno_raw/test.mat".toList) : exOneName.files p = exDiskEnv.files p := pick_else h

theorem exOneName_disk : SbdDisk exOneName (fun _ => true) exSbdFs.text (exSbdArgs true) ["a".toList] ["b".toList]
    fun _ => exSbdMats := by
  have hp : ∀ k n : Str, (k = "cls_orig".toList ∨ k = "inst_orig".toList) →
      slashed ["d".toList, k, n] ≠ "d/gt_reanno_raw/test.mat".toList := by
    rintro k n (rfl | rfl) h
    · rw [show slashed ["d".toList, "cls_orig".toList, n] = "d/cls_orig/".toList ++ n by simp [slashed]] at h
      have := congrArg (List.take 3) h
      rw [List.take_append_of_le_length (by decide)] at this
      revert this; decide
    · rw [show slashed ["d".toList, "inst_orig".toList, n] = "d/inst_orig/".toList ++ n by simp [slashed]] at h
      have := congrArg (List.take 3) h
      rw [List.take_append_of_le_length (by decide)] at this
      revert this; decide
  have hd := exSbdDisk exDiskEnv rfl true
  refine ⟨hd.root, hd.out, hd.outRel, rfl, rfl, hd.trainFile, hd.valFile, hd.trainNe, hd.valNe, hd.lines, ?_, hd.rows, hd.fits⟩
  intro n hn
  obtain ⟨g1, g2, g3, ⟨f, f1, f2⟩, ⟨f', f3, f4⟩⟩ := hd.files n hn
  exact ⟨g1, g2, g3, ⟨f, (exOneName_neg (hp _ _ (Or.inl rfl))).trans f1, f2⟩,
    ⟨f', (exOneName_neg (hp _ _ (Or.inr rfl))).trans f3, f4⟩⟩

theorem exOneName_list : HasVar (exNamesFile ["b".toList]) "listTest".toList ((exNamesFile ["b".toList]).vals 0) ∧
    IsNames ((exNamesFile ["b".toList]).vals 0) ["b".toList] := ⟨⟨by decide, rfl⟩, ⟨_, rfl, fun _ _ => rfl⟩⟩

/-- A `test.mat` with a single name. -/
example : ∃ F, ∀ fuel, F ≤ fuel → ∃ w, convertSbd (refLib 2) fuel (filesOf exOneName (fun _ => true) exSbdFs.text) (exSbdArgs true) =
    some ⟨w, some .typeError⟩ := by
  obtain ⟨F, h⟩ := C81_reanno_fails (refLib 2) exOneName (fun _ => true) exSbdFs.text (exSbdArgs true) ["a".toList] ["b".toList]
    (fun _ => exSbdMats) exOneName_disk exact2 exact1 rfl (fun _ _ => rfl) .typeError
    (Or.inr ⟨exNamesFile ["b".toList], exOneName_pos, Or.inr ⟨"b".toList, ⟨_, exOneName_list⟩, rfl⟩⟩)
  refine ⟨F, fun fuel hf => ?_⟩
  obtain ⟨w, h1, -⟩ := h fuel hf
  exact ⟨w, h1⟩

/-- The class file of `b` is unreadable. -/
def exUnreadable : SbdFs := { exSbdFs with
  text := fun _ => some "a\nb\n".toList
  cls := fun _ p => if p = "d/cls_orig/b.mat".toList then .error .keyError else .ok exSbdMats.1 }

theorem exUnreadable_base : SbdBase exUnreadable (exSbdArgs false) ["a".toList] fun _ => exSbdMats := by
  refine ⟨(exSbdBase false).root, (exSbdBase false).out, (exSbdBase false).outRel, rfl, rfl, fun n hn => ?_⟩
  rw [List.mem_singleton] at hn
  subst hn
  exact ⟨by unfold Relative; decide, rfl, rfl, 
    rfl, rfl, by decide, exSbdFits⟩

theorem exUnreadable_b : exUnreadable.cls false (slashed ["d".toList, "cls_orig".toList, "b".toList ++ ".mat".toList]) =
    .error .keyError :=
  rfl

/-- An unreadable class file of the second training sample. -/
example (fuel : Nat) : ∃ w, convertSbd (refLib 2) fuel exUnreadable (exSbdArgs false) = some ⟨w, some .keyError⟩ ∧
    ∃ d, ("d/gtEval/a_raw_isedge.png".toList, d) ∈ w := by
  obtain ⟨w, h1, -, h2⟩ := C81_unreadable (refLib 2) exUnreadable (exSbdArgs false) ["a".toList] [] "b".toList (fun _ => exSbdMats)
    exUnreadable_base exact2 (by decide +kernel) (by unfold Relative; decide) (fun _ _ => rfl) .keyError (Or.inl exUnreadable_b) fuel
  exact ⟨w, h1, h2 "a".toList (by simp) (.edge false true) (by decide)⟩

end EdgeEval.Props
