import Verif.Model.Commands
import Verif.Spec.Argparse
import Verif.Spec.Samples
import Verif.Spec.MatFile

/-!
# Vocabulary for the commands
-/

namespace EdgeEval.Spec

open Text Samples MatFile Commands

/-- The output directory `out` is the one asked for, or else `edge_results_<time>` in the prediction directory; it can
be made (there is nothing to make for the empty path), the log file in it can be opened, and the operating system
answers like `fs` from then on. -/
structure OutputReady (w : World) (pred : Str) (asked : Option Str) (out : Str) (fs : Fs) : Prop where
  dir : out = asked.getD (pjoin (normpath pred) ("edge_results_".toList ++ w.stamp))
  made : if out = [] then fs = w.fs else w.mkdir out = .ok fs
  log : w.log (pjoin out (w.stamp' ++ ".log".toList)) = true

/-- The file at `path` holds these annotations, the way BSDS stores them. -/
def HoldsAnnotations (env : MatEnv) (path : Str) (l : List (Img Nat)) : Prop :=
  ∃ f v, env.files path = some f ∧ HasVar f "groundTruth".toList v ∧ IsBsds v l

/-- `stem.mat` is an entry of the directory (and not a hidden file). -/
def MatEntry (files : List Str) (stem : Str) : Prop := stem ++ ".mat".toList ∈ files ∧ ∃ ch ∈ stem, ch ≠ '.'

/-- Number of boundary pixels the annotators of a picture marked. -/
def markedPixels (l : List (Img Nat)) : Nat :=
  (l.map fun g => ((Finset.range g.rows ×ˢ Finset.range g.cols).filter fun q => g.at_ q.1 q.2 = 1).card).sum

/-- Number of pixels of a prediction (in 256 grey levels) that reach the threshold. -/
def reaching (t : ℚ) (P : Img Nat) : Nat :=
  ((Finset.range P.rows ×ˢ Finset.range P.cols).filter fun q => t ≤ (P.at_ q.1 q.2 : ℚ) / 255).card

/-- The annotations are binary and have the size of the prediction. -/
def FitsPrediction (P : Img Nat) (G : List (Img Nat)) : Prop :=
  ∀ g ∈ G, g.rows = P.rows ∧ g.cols = P.cols ∧ ∀ i j, i < g.rows → j < g.cols → g.at_ i j = 0 ∨ g.at_ i j = 1

/-- The file at `path` lists these samples, one per line, in any line-ending convention, with or without an end of line
after the last one. -/
def ListsSamples (fs : Fs) (path : Str) (names : List Str) : Prop :=
  fs.ex path = true ∧ names ≠ [] ∧ ∃ eol items last, (eol = ['\n'] ∨ eol = ['\r', '\n'] ∨ eol = ['\r']) ∧
    (∀ s ∈ items, OneLine s) ∧ OneLine last ∧ names = items ++ (if last = [] then [] else [last]) ∧
    fs.read path = some (linesText eol items ++ last)

/-- Everything the evaluation of these categories of these samples reads is in place: the files of boundary labels,
segmentations and predictions are at `edge n`, `seg n` and `pred c n`. -/
structure HasFiles (fs : Fs) (pics : Datasets.Pictures) (names : List Str) (cs : List Int) (edge seg : Str → Str)
    (pred : Nat → Str → Str) (scale : ℚ) (kill : Bool) : Prop where
  present : ∀ n ∈ names, fs.ex (edge n) = true ∧ fs.ex (seg n) = true
  edges : ∀ n ∈ names, ∃ E, pics.rgb (edge n) = some E ∧ 1 / 2 ≤ E.h * scale ∧ 1 / 2 ≤ E.w * scale
  preds : ∀ n ∈ names, ∀ c ∈ cs, ∃ P, pics.gray (pred c.toNat n) = some P
  segs : kill = true → ∀ n ∈ names, ∃ S, pics.gray (seg n) = some S

/-- One of the directories, or one of the files of labels or segmentations of a listed sample, does not exist. -/
def Lacks (fs : Fs) (dirs : List Str) (names : List Str) (edge seg : Str → Str) : Prop :=
  (∃ d ∈ dirs, fs.ex d = false) ∨ ∃ n ∈ names, fs.ex (edge n) = false ∨ fs.ex (seg n) = false

end EdgeEval.Spec
