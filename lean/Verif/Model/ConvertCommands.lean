import Verif.Model.Argparse
import Verif.Model.ConvertSbd
import Verif.Model.MatlabTest

/-!
# The conversion commands as a whole

`scripts/convert_datasets/*.py`, from the words of the command line to the files written: the command line is read
(`Model/Argparse.lean`), the output directory is made and the jobs run (`Model/Convert.lean`, `Model/ConvertSbd.lean`),
in the listed order or, with several processes, in any order.

Simplifications: with several processes, `order` is the order in which the jobs of a phase take effect; after a job that
raises, what other workers still write is left out (the statements about the files of a run with several processes are about
runs in which no job raises).  The directories of single files and `splits` can be made (`mkdir_or_exist` in the jobs and
before the lists).
-/

namespace EdgeEval.ConvertCommands

open Text Evaluators Samples Datasets PathU Argparse EdgeEval.Convert ConvertSbd MatlabTest

/-- How the Cityscapes command ends. -/
inductive CityEnd where
  /-- `argparse` ended the process with this status -/
  | exit (status : Nat)
  | converted (t : Convert.Trace)
  | compared (r : Except PyErr (MatlabTest.Report × MatlabTest.Report))

/-- How the SBD command ends. -/
inductive SbdEnd where
  | exit (status : Nat)
  | converted (t : ConvertSbd.Trace)

/-- What the Cityscapes command meets. -/
structure CityHost where
  /-- the pictures the converter opens -/
  pics : Pictures
  /-- the pictures the comparison opens -/
  arrays : Str → Option NpArr
  /-- a numpy before 1.25 -/
  legacy : Bool
  tree : Str → Option Entries
  /-- `os.path.exists`, once the output directory is there -/
  ex : Str → Bool
  /-- utils/path.py:18-22 `mkdir_or_exist` of a path that is not empty -/
  mkdir : Str → Except PyErr Unit

/-- convert_cityscapes.py:191-205, 317-320  the work of every phase in the order in which it takes effect. -/
def reordered (order : Nat → List Action → List Action) (ps : List (Except PyErr (List Action))) :
    List (Except PyErr (List Action)) :=
  ps.mapIdx fun i p => p.map (order i)

/-- convert_cityscapes.py:249-397 `convert_cityscapes` with `nproc`. -/
noncomputable def cityIn (lib : DTLib) (fuel : Nat) (h : CityHost) (order : Nat → List Action → List Action) (a : CityArgs)
    (nproc : Int) : Option Convert.Trace :=
  if a.procDirname = [] then some ⟨[], some .assertionError⟩
  else
    match h.mkdir (pjoin a.root a.procDirname) with
    | .error e => some ⟨[], some e⟩
    | .ok _ =>
      if nproc > 1 ∧ h.ex (gtDir a) = true ∧ (a.ext = "png".toList ∨ a.ext = "bin".toList ∨ a.ext = "tif".toList) then
        runPhases lib fuel h.pics (reordered order (cityPhases h.tree a))
      else convertCity lib fuel h.pics h.tree (h.ex (gtDir a)) a

/-- scripts/convert_datasets/cityscapes.py:56-85  the command; `none`: it has not ended (within the fuel, or with these
schedules of the pools of the comparison). -/
noncomputable def city (lib : DTLib) (fuel : Nat) (h : CityHost) (order : Nat → List Action → List Action)
    (sched1 sched2 : List PoolEvent) (argv : List Str) : Option CityEnd :=
  match convCityMain argv with
  | .error status => some (.exit status)
  | .ok (.convert a nproc) => (cityIn lib fuel h order a nproc).map .converted
  | .ok (.compare a nproc) => (testAgainstMatlab h.legacy h.arrays h.tree a nproc.toNat sched1 sched2).map .compared

/-- scripts/convert_datasets/sbd.py:112-125  one split; `order k` and `order (k + 1)` are the orders of its two passes. -/
noncomputable def splitIn (lib : DTLib) (fuel : Nat) (fs : SbdFs) (order : Nat → List Str → List Str) (k : Nat) (a : SbdArgs)
    (split : Str) : Option ConvertSbd.Trace :=
  reading (do
      let l ← getSamples fs (pjoin a.root (split ++ ".txt".toList))
      assert (decide (0 < l.length))
      .ok l) fun l =>
    andThen (runJobs (routine lib fuel fs (scriptOpts a false)) (order k l))
      (runJobs (routine lib fuel fs (scriptOpts a true)) (order (k + 1) l))

/-- scripts/convert_datasets/sbd.py:128-168  the re-annotated part. -/
noncomputable def reannoIn (fs : SbdFs) (order : Nat → List Str → List Str) (a : SbdArgs) : Option ConvertSbd.Trace :=
  reading (do
      let rawDir ← checkPath fs (pjoin a.root "gt_reanno_raw".toList)
      let thinDir ← checkPath fs (pjoin a.root "gt_reanno_thin".toList)
      let rawList ← reannoSamples fs (pjoin rawDir "test.mat".toList)
      let thinList ← reannoSamples fs (pjoin thinDir "test.mat".toList)
      .ok (rawDir, thinDir, rawList, thinList)) fun r =>
    andThen
      (runJobs (reannoRoutine fs r.1 (saveDirOf a) "_reanno_raw_edge.png".toList "_reanno_raw_isedge.png".toList)
        (order 4 r.2.2.1))
      (andThen
        (runJobs (reannoRoutine fs r.2.1 (saveDirOf a) "_reanno_thin_edge.png".toList "_reanno_thin_isedge.png".toList)
          (order 5 r.2.2.2))
        (some ⟨[(pjoin a.root "reanno_val.txt".toList, .text ((r.2.2.1.map fun s => s ++ ['\n']).flatten))], none⟩))

/-- scripts/convert_datasets/sbd.py:57-168  the script with `nproc`; `fs` before the output directory is made (with an empty path
nothing is made; the model then says that it exists, which no statement uses). -/
noncomputable def sbdIn (lib : DTLib) (fuel : Nat) (fs0 : SbdFs) (mkdir : Str → Except PyErr Unit)
    (order : Nat → List Str → List Str) (a : SbdArgs) (nproc : Int) : Option ConvertSbd.Trace :=
  match mkdir (saveDirOf a) with
  | .error e => some ⟨[], some e⟩
  | .ok _ =>
    let fs := withDir fs0 (saveDirOf a)
    let order := if nproc > 1 then order else fun _ l => l
    andThen (splitIn lib fuel fs order 0 a "train".toList)
      (andThen (splitIn lib fuel fs order 2 a "val".toList)
        (if a.reanno then reannoIn fs order a else some ⟨[], none⟩))

/-- scripts/convert_datasets/sbd.py  the command. -/
noncomputable def sbd (lib : DTLib) (fuel : Nat) (fs : SbdFs) (mkdir : Str → Except PyErr Unit)
    (order : Nat → List Str → List Str) (argv : List Str) : Option SbdEnd :=
  match convSbdMain argv with
  | .error status => some (.exit status)
  | .ok (a, nproc) => (sbdIn lib fuel fs mkdir order a nproc).map .converted

end EdgeEval.ConvertCommands
