import Verif.Model.Csa

/-!
# Model of `csa.hh` with the rounding of its `double` arithmetic

The solver of `Model/Csa.lean` once more, now with every arithmetic operation on `double` followed by a rounding `fl`.
Nothing is assumed about `fl` here.  Comparisons, copies and the conversion of an `int` cost are exact.  The same macros
are active.  `Model/Csa.lean` is the instance `fl = id` (theorem `csaSolveF_id`).
-/

namespace EdgeEval

/-- csa.hh:957, 967, 987, 989, 999 and 870, 894  `a->c - a->head->p`, rounded. -/
def redCostF (fl : ℚ → ℚ) (adj : Nat → List Arc) (p : Nat → ℚ) (v k : Nat) : ℚ :=
  fl (((arcAt adj v k).cost : ℚ) - p (arcAt adj v k).head)

/-- csa.hh:957-975  scan of all arcs; `v_second = v_pref + epsilon * (po_cost_thresh + 1.0)` is three operations. -/
def scanAllF (fl : ℚ → ℚ) (rc : Nat → ℚ) (deg : Nat) (eps po : ℚ) : Scan :=
  (List.range' 1 (deg - 1)).foldl (scanStep rc) ⟨rc 0, fl (rc 0 + fl (eps * fl (po + 1))), 0⟩

/-- csa.hh:933-1029  part I of `double_push`. -/
def chooseF (fl : ℚ → ℚ) (rc : Nat → ℚ) (deg : Nat) (eps po : ℚ) (best : List Nat) (nextBest : ℚ) :
    Scan × List Nat × ℚ :=
  if deg < numBest + 1 then (scanAllF fl rc deg eps po, best, nextBest)
  else
    let s := scanBest rc best
    if s.second > nextBest then
      let (b, nb) := bestBuild rc deg
      (⟨rc (b.getD 0 0), rc (b.getD 1 0), b.getD 0 0⟩, b, nb)
    else (s, best, nextBest)

/-- csa.hh:918-1102  `double_push(v)`; `adm_gap = v_second - v_pref` and `w->p -= adm_gap + epsilon` are rounded. -/
def doublePushF (fl : ℚ → ℚ) (adj : Nat → List Arc) (eps po : ℚ) (v : Nat) (s : CsaState) : CsaState :=
  let rc := redCostF fl adj s.p v
  let (sc, best', nb') := chooseF fl rc (adj v).length eps po (s.best v) (s.nextBest v)
  let gap := fl (sc.second - sc.pref)
  let w := (arcAt adj v sc.adm).head
  let s1 : CsaState :=
    { s with
      p := upd s.p w (fl (s.p w - fl (gap + eps)))
      best := upd s.best v best'
      nextBest := upd s.nextBest v nb' }
  match s.mR w with
  | some u =>
    { s1 with
      mL := upd (upd s.mL u none) v (some sc.adm)
      mR := upd s.mR w (some v)
      active := u :: s1.active }
  | none =>
    { s1 with
      mL := upd s.mL v (some sc.adm)
      mR := upd s.mR w (some v)
      totalE := s1.totalE - 1 }

/-- csa.hh:1153-1173  the main loop of `refine`. -/
def refineLoopF (fl : ℚ → ℚ) (adj : Nat → List Arc) (eps po : ℚ) : Nat → CsaState → Option CsaState
  | 0, _ => none
  | fuel + 1, s =>
    if s.totalE = 0 then some s
    else
      match s.active with
      | [] => none
      | v :: rest =>
        if adj v = [] then none
        else refineLoopF fl adj eps po fuel (doublePushF fl adj eps po v { s with active := rest })

/-- csa.hh:1104-1182  `refine`. -/
def refineF (fl : ℚ → ℚ) (adj : Nat → List Arc) (N : Nat) (eps po : ℚ) (fuel : Nat) (s : CsaState) :
    Option CsaState :=
  refineLoopF fl adj eps po fuel (refineInit adj N s)

/-- csa.hh:1264-1266  `epsilon /= scale_factor; if (epsilon < min_epsilon) epsilon = min_epsilon`. -/
def updateEpsilonF (fl : ℚ → ℚ) (eps minEps : ℚ) : ℚ :=
  if fl (eps / scaleFactor) < minEps then minEps else fl (eps / scaleFactor)

/-- csa.hh:451-467  the scaling loop of `main`. -/
def mainLoopF (fl : ℚ → ℚ) (adj : Nat → List Arc) (N : Nat) (po minEps : ℚ) (fuelR : Nat) :
    Nat → ℚ → CsaState → Option CsaState
  | 0, _, _ => none
  | fuel + 1, eps, s =>
    if eps > minEps then
      match refineF fl adj N (updateEpsilonF fl eps minEps) po fuelR s with
      | some s' => mainLoopF fl adj N po minEps fuelR fuel (updateEpsilonF fl eps minEps) s'
      | none => none
    else some s

/-- csa.hh:323-378  `init`. -/
def csaInitF (fl : ℚ → ℚ) (adj : Nat → List Arc) : CsaState where
  p := fun _ => 0
  mL := fun _ => none
  mR := fun _ => none
  best := fun v =>
    if (adj v).length < numBest + 1 then []
    else (bestBuild (redCostF fl adj (fun _ => 0) v) (adj v).length).1
  nextBest := fun v =>
    if (adj v).length < numBest + 1 then 0
    else (bestBuild (redCostF fl adj (fun _ => 0) v) (adj v).length).2
  active := []
  totalE := 0

/-- csa.hh:263  `po_cost_thresh = 2.0 * (double) n * (scale_factor + 1)`. -/
def poF (fl : ℚ → ℚ) (n : Nat) : ℚ := fl (fl (2 * fl n) * fl (scaleFactor + 1))

/-- csa.hh:444  `min_epsilon = 2.0 / (double) (n + 1)`. -/
def minEpsF (fl : ℚ → ℚ) (n : Nat) : ℚ := fl (2 / fl ((n + 1 : Nat) : ℚ))

/-- csa.hh:428-469  `main` up to the end of the scaling loop: the final state. csa.hh:343 converts the largest cost to
`double`. -/
def csaRunF (fl : ℚ → ℚ) (fuel : Nat) (n : Nat) (g : List InArc) : Option CsaState := do
  let adj ← csaParse n g
  mainLoopF fl adj (n / 2) (poF fl n) (minEpsF fl n) fuel fuel (fl (csaMaxCost g)) (csaInitF fl adj)

/-- csa.hh:428-473 and csa.cc  `CSA csa(n, m, graph)` followed by `csa.edge(i, …)` for all `i`. -/
def csaSolveF (fl : ℚ → ℚ) (fuel : Nat) (n : Nat) (g : List InArc) : Option (List InArc) := do
  let adj ← csaParse n g
  let s ← csaRunF fl fuel n g
  storeResults adj (n / 2) s

end EdgeEval
