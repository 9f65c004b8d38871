import Verif.Model.Evaluators

/-!
# The evaluation protocols, as a table
-/

namespace EdgeEval.Spec

open Evaluators

/-- What an evaluation protocol fixes. -/
structure Protocol where
  /-- distance tolerance, as a fraction of the image diagonal -/
  maxDist : ℚ
  /-- edges between instances of the class are removed -/
  killInternal : Bool
  /-- images without the class are skipped -/
  skipAbsent : Bool
  /-- ground truth distinguishes instances -/
  instances : Bool
  deriving DecidableEq, Repr

/-- The "pre-SEAL" protocol. -/
def preSeal : Protocol := ⟨1 / 50, true, true, false⟩

/-- The "post-SEAL" protocol with tolerance `d`, instance-sensitive or not. -/
def postSeal (d : ℚ) (inst : Bool) : Protocol := ⟨d, !inst, !inst, inst⟩

/-- Everything chosen by the caller. -/
def custom (a : Args) : Protocol := ⟨a.maxDist, a.killInternal, a.skipIfNonexistent, a.instanceSensitive⟩

/-- The protocol requested by a call on each (multi-label) class. -/
def requested (k : Kind) (a : Args) : Protocol :=
  match k with
  | .reanno => ⟨a.maxDist, false, false, a.instanceSensitive⟩
  | .sbd =>
    if a.evalMode = some "pre-seal" then preSeal
    else if a.evalMode = some "post-seal" then postSeal (1 / 50) a.instanceSensitive else custom a
  | _ =>
    if a.evalMode = some "pre-seal" then preSeal
    else if a.evalMode = some "post-seal" then postSeal a.maxDist a.instanceSensitive else custom a

/-- The scale is one the class accepts. -/
def ScaleOk (k : Kind) (a : Args) : Prop := k = .half ∨ (0 < a.scale ∧ a.scale ≤ 1)

/-- The call is rejected: bad scale, or instance-sensitive pre-SEAL on Cityscapes. -/
def Rejected (k : Kind) (a : Args) : Prop :=
  ¬ ScaleOk k a ∨
    ((k = .cityscapes ∨ k = .half ∨ k = .otf) ∧ a.evalMode = some "pre-seal" ∧ a.instanceSensitive = true)

end EdgeEval.Spec
