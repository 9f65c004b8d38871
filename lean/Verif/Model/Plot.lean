import Verif.Model.Io

/-!
# Model of `plot_pr_curve` (`visualization/pr_curve.py`, `common/binary_label/visualize.py`) and `_calc_r50`

What is drawn is the list of curves in drawing order, the list of legend entries with the curve each is attached to, and the
printed lines; the axes, fonts and the window are matplotlib's.  `np.argsort` is not stable, so it is a parameter; the `float32` table
`res` stores every number through the parameter `f32`.
-/

namespace EdgeEval.Plot

open EdgeEval Text Io

/-- Column `k` of a table; a shorter row is an `IndexError`. -/
def column (k : Nat) (rows : List (List ℚ)) : Except PyErr (List ℚ) := mapM' (fun r => getItem r k) rows

/-- pr_curve.py:67-76  `_calc_r50(pr)`.  `none` is `nan`.  `interp1d(..., bounds_error=False, fill_value=nan)` (library) at a point
that is not below the first abscissa: `nan` beyond the last one, else linear interpolation (`np.interp`).  On an empty table `o[0]`
is an `IndexError` (some scipy versions raise `ValueError` a moment earlier). -/
def calcR50 (pr : List (List ℚ)) : Except PyErr (Option ℚ) :=
  match column 2 pr with
  | .error e => .error e
  | .ok ps =>
    match column 1 pr with
    | .error e => .error e
    | .ok rs =>
      let pts := uniqueFirst ps rs
      match pts with
      | [] => .error .indexError
      | (p0, _) :: _ =>
        let q := max p0 (1 / 2)
        if pts.all fun y => y.1 < q then .ok none else .ok (some (npInterp q 0 0 pts))

/-- pr_curve.py:17-24  one algorithm: its name and the contents of its two files. -/
structure Alg where
  name : Str
  thresholds : Str
  overall : Str
  deriving DecidableEq

/-- What the loading loop keeps of one algorithm: its row of `res` (eight numbers and R50) and its table `pr`. -/
structure Loaded where
  overall : List ℚ
  r50 : Option ℚ
  pr : List (List ℚ)
  deriving DecidableEq

/-- pr_curve.py:106-110  one iteration of the loading loop. -/
def loadOne (f32 : ℚ → ℚ) (a : Alg) : Except PyErr Loaded :=
  match loadAlgorithm a.thresholds a.overall with
  | .error e => .error e
  | .ok (pr, ov) =>
    match calcR50 pr with
    | .error e => .error e
    | .ok r => .ok ⟨ov.map f32, r.map f32, pr⟩

/-- The shape of a table (all rows have the same length after `np.loadtxt`). -/
def shape (pr : List (List ℚ)) : Nat × Nat := (pr.length, (pr.head?.getD []).length)

/-- pr_curve.py:111  `np.stack(prs, axis=0)`: `ValueError` unless all tables have the same shape. (The number of columns of an empty
table is not tracked; an empty table never gets here, see `calcR50`.) -/
def stackable (prs : List (List (List ℚ))) : Bool :=
  match prs with
  | [] => false
  | p :: ps => ps.all fun q => shape q = shape p

/-- A curve: its points (recall, precision) and its colour. -/
structure Curve (C : Type) where
  points : List (ℚ × ℚ)
  color : C
  deriving DecidableEq

/-- A legend entry: the text `[F=…] name` as its two parts, and the curve it explains (`none`: the human marker). -/
structure Entry (C : Type) where
  f1 : ℚ
  name : Str
  curve : Option (Curve C)
  deriving DecidableEq

/-- A printed line: ODS, OIS, AP, R50 and the name. -/
structure Line where
  ods : ℚ
  ois : ℚ
  ap : ℚ
  r50 : Option ℚ
  name : Str
  deriving DecidableEq

/-- The figure. -/
structure Figure (C : Type) where
  drawn : List (Curve C)
  legend : List (Entry C)
  printed : List Line
  deriving DecidableEq

/-- pr_curve.py:113-131  what is drawn and printed for the algorithm with index `j` of the original lists. -/
def drawOne {C : Type} [Inhabited C] (names : List Str) (colors : List C) (ls : List Loaded) (j : Nat) : Curve C × Entry C × Line :=
  let l := ls.getD j ⟨[], none, []⟩
  let c : Curve C := ⟨l.pr.map fun r => (r.getD 1 0, r.getD 2 0), colors.getD j default⟩
  let name := names.getD j []
  (c, ⟨l.overall.getD 3 0, name, some c⟩, ⟨l.overall.getD 3 0, l.overall.getD 6 0, l.overall.getD 7 0, l.r50, name⟩)

/-- pr_curve.py:79-142 and visualize.py:34-107  `plot_pr_curve(algs, names, colors)`; `human` is `plot_human` of the BSDS500 version
(the other version is `human = false`).  `argsort` is `np.argsort` of the ODS column, `rainbow n` the default colours. -/
def plotPrCurve {C : Type} [Inhabited C] (f32 : ℚ → ℚ) (argsort : List ℚ → List Nat) (rainbow : Nat → List C)
    (algs : List Alg) (names : Option (List Str)) (colors : Option (List C)) (human : Bool) : Except PyErr (Figure C) :=
  let n := algs.length
  let n' := if human then n + 1 else n
  if n = 0 then .error .assertionError
  else if names.any fun ns => ns.length ≠ n then .error .assertionError
  else if colors.any fun cs => cs.length ≠ n' then .error .assertionError
  else
    let names := names.getD (algs.map Alg.name)
    let colors := colors.getD (rainbow n')
    match mapM' (loadOne f32) algs with
    | .error e => .error e
    | .ok ls =>
      if stackable (ls.map Loaded.pr) then
        let o := (argsort (ls.map fun l => l.overall.getD 3 0)).reverse
        let all := o.map (drawOne names colors ls)
        let mark : List (Entry C) := if human then [⟨4 / 5, "Human".toList, none⟩] else []
        .ok ⟨(all.map fun x => x.1).reverse, mark ++ all.map (fun x => x.2.1), (all.map fun x => x.2.2).reverse⟩
      else .error .valueError

end EdgeEval.Plot
