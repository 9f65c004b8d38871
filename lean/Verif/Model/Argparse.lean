import Verif.Model.Cli
import Verif.Model.ConvertSbd
import Verif.Model.MatlabTest

/-!
# `argparse` command lines

The commands read their options with Python's `argparse`, a library that is not part of `/repo`.  Its behaviour
(CPython 3.8-3.11, `ArgumentParser.parse_args`) is written down here for the features the repository uses: string
positionals, `store_true` flags, options with one argument converted by `str`, `int` or `float`, `choices`, the
automatic `-h`/`--help`, unique prefixes of long options, `--name=value`, `-nVALUE`, negative numbers and `--`.

An `error` is the exit status of the process: 0 for the help, 2 for a usage error, 1 for the uncaught exception of
an empty cluster (`-h=`).  Nothing but the message is printed before the exit.

Simplifications: digits are ASCII digits; `float` is `Text.floatLit` (no `nan`, no `inf`); a second `--` is a usage
error (the library may take it as a value or raise an exception).
-/

namespace EdgeEval.Argparse

open Text

/-- A value of the namespace. -/
inductive Val where
  | none
  | str (s : Str)
  | int (z : Int)
  | num (q : ℚ)
  | flag (b : Bool)

/-- The `type=` of an argument; a string may be restricted to some `choices`. -/
inductive Conv where
  | str (choices : Option (List Str))
  | int
  | float
deriving DecidableEq

/-- The `action=` of an optional argument. -/
inductive Act where
  | storeTrue
  | store (c : Conv)
deriving DecidableEq

/-- One `add_argument` of an optional argument. -/
structure Opt where
  names : List Str
  act : Act
  default : Val

/-- A parser: the names of the (string) positionals and the optional arguments. -/
structure Parser where
  positionals : List Str
  options : List Opt

/-- Two dashes. -/
def dd : Str := ['-', '-']

/-- The attribute of the namespace: the first long name without its dashes, `-` replaced by `_`. -/
def Opt.dest (o : Opt) : Str :=
  match o.names.find? fun n => dd.isPrefixOf n with
  | some n => (n.drop 2).map fun c => if c = '-' then '_' else c
  | none => (o.names.headD []).drop 1

/-- What an option string stands for. -/
inductive Target where
  | help
  | opt (o : Opt)

/-- `parser._option_string_actions`. -/
def table (p : Parser) : List (Str × Target) :=
  ("-h".toList, Target.help) :: ("--help".toList, Target.help) ::
    (p.options.map fun o => o.names.map fun n => (n, Target.opt o)).flatten

/-- A classified command-line word. -/
inductive Tok where
  /-- a word that can be a value -/
  | arg (s : Str)
  /-- an option string with the value attached to it -/
  | opt (name : Str) (t : Target) (explicit : Option Str)
  /-- looks like an option, is none -/
  | unknown
  /-- the first `--` -/
  | dashes

/-- `parser._get_option_tuples`. -/
def candidates (p : Parser) (s : Str) : List Tok :=
  if dd.isPrefixOf s then
    (table p).filterMap fun x : Str × Target =>
      if (splitFirst (· = '=') s).1.isPrefixOf x.1 then some (.opt x.1 x.2 (splitFirst (· = '=') s).2) else none
  else
    (table p).filterMap fun x : Str × Target =>
      if x.1 = s.take 2 then some (.opt x.1 x.2 (some (s.drop 2)))
      else if s.isPrefixOf x.1 then some (.opt x.1 x.2 none) else none

/-- A digit. -/
def isDigit (c : Char) : Bool := (charDigit c).isSome

/-- `parser._negative_number_matcher`. -/
def negNumber : Str → Bool
  | '-' :: r =>
    match splitFirst (· = '.') r with
    | (a, none) => a ≠ [] && a.all isDigit
    | (a, some b) => a.all isDigit && (b ≠ [] && b.all isDigit)
  | _ => false

/-- The `name=value` form with a complete name. -/
def exactEq (p : Parser) (s : Str) : Option Tok :=
  match splitFirst (· = '=') s with
  | (_, none) => none
  | (n, some v) => ((table p).lookup n).map fun t => .opt n t (some v)

/-- `parser._parse_optional`. -/
def classify (p : Parser) (s : Str) : Except Nat Tok :=
  if s.head? ≠ some '-' then .ok (.arg s)
  else
    match (table p).lookup s with
    | some t => .ok (.opt s t none)
    | none =>
      if s = ['-'] then .ok (.arg s)
      else
        match exactEq p s with
        | some t => .ok t
        | none =>
          match candidates p s with
          | [] => if negNumber s || s.contains ' ' then .ok (.arg s) else .ok .unknown
          | [t] => .ok t
          | _ => .error 2

/-- The first loop of `parser._parse_known_args`. -/
def classifyAll (p : Parser) : List Str → Except Nat (List Tok)
  | [] => .ok []
  | s :: rest =>
    if s = dd then
      if dd ∈ rest then .error 2 else .ok (.dashes :: rest.map .arg)
    else
      match classify p s with
      | .error e => .error e
      | .ok t =>
        match classifyAll p rest with
        | .error e => .error e
        | .ok ts => .ok (t :: ts)

/-- `type_func(arg_string)` and the `choices` check. -/
def convert (c : Conv) (s : Str) : Option Val :=
  match c with
  | .str choices => if choices.all fun l => decide (s ∈ l) then some (.str s) else none
  | .int => (match intLit s with
    | .ok z => some (.int z)
    | .error _ => none)
  | .float => (match floatLit s with
    | .ok q => some (.num q)
    | .error _ => none)

/-- The exit status of a cluster of short options `-hxyz`: the help is an action of the cluster.  `next` says that
a value follows. -/
def clusterExit (p : Parser) (next : Bool) : Str → Nat
  | [] => 1
  | c :: rest =>
    match (table p).lookup ['-', c] with
    | none => 2
    | some .help => if rest = [] then 0 else clusterExit p next rest
    | some (.opt o) =>
      match o.act with
      | .storeTrue => if rest = [] then 0 else clusterExit p next rest
      | .store _ => if rest ≠ [] ∨ next then 0 else 2

/-- The state of the second loop. -/
structure St where
  /-- positionals still to be filled -/
  left : List Str
  ns : Str → Val
  /-- some word was not recognised -/
  extras : Bool
  /-- the last word was taken as a positional -/
  fresh : Bool

/-- `setattr(namespace, d, v)`. -/
def set (ns : Str → Val) (d : Str) (v : Val) : Str → Val := fun k => if k = d then v else ns k

/-- Is the next word a value? -/
def startsArg : List Tok → Bool
  | .arg _ :: _ => true
  | _ => false

/-- The second loop of `parser._parse_known_args` and the checks at its end. -/
def consume (p : Parser) : List Tok → St → Except Nat (Str → Val)
  | [], st => if st.left ≠ [] ∨ st.extras = true then .error 2 else .ok st.ns
  | .arg s :: ts, st =>
    match st.left with
    | [] => consume p ts { st with extras := true, fresh := false }
    | d :: ds => consume p ts { st with left := ds, ns := set st.ns d (.str s), fresh := true }
  | .unknown :: ts, st => consume p ts { st with extras := true, fresh := false }
  | .dashes :: ts, st =>
    if st.fresh = true ∨ (st.left ≠ [] ∧ startsArg ts = true) then consume p ts { st with fresh := false }
    else consume p ts { st with extras := true, fresh := false }
  | .opt n t e :: ts, st =>
    match t, e with
    | .help, none => .error 0
    | .help, some x => if dd.isPrefixOf n then .error 2 else .error (clusterExit p (startsArg ts) x)
    | .opt o, e =>
      match o.act, e with
      | .storeTrue, none => consume p ts { st with ns := set st.ns o.dest (.flag true), fresh := false }
      | .storeTrue, some _ => .error 2
      | .store c, some x =>
        (match convert c x with
        | none => .error 2
        | some v => consume p ts { st with ns := set st.ns o.dest v, fresh := false })
      | .store c, none =>
        match ts with
        | .arg s :: ts' =>
          (match convert c s with
          | none => .error 2
          | some v => consume p ts' { st with ns := set st.ns o.dest v, fresh := false })
        | _ => .error 2

/-- The namespace before the first word: the defaults. -/
def defaults (p : Parser) : Str → Val :=
  p.options.foldl (fun ns o => set ns o.dest o.default) fun _ => .none

/-- `parser.parse_args(argv)`: the namespace, or the exit status. -/
def parse (p : Parser) (argv : List Str) : Except Nat (Str → Val) :=
  match classifyAll p argv with
  | .error e => .error e
  | .ok ts => consume p ts ⟨p.positionals, defaults p, false, false⟩

/-! ## The parsers of the repository -/

/-- `add_argument(name, type=str)` -/
def optStr (n : String) : Opt := ⟨[n.toList], .store (.str none), .none⟩
/-- `add_argument(name, type=str, default=d)` -/
def optStrD (n d : String) : Opt := ⟨[n.toList], .store (.str none), .str d.toList⟩
/-- `add_argument(name, type=float, default=d)` -/
def optNum (n : String) (d : ℚ) : Opt := ⟨[n.toList], .store .float, .num d⟩
/-- `add_argument(name, type=int, default=d)` -/
def optInt (n : String) (d : Int) : Opt := ⟨[n.toList], .store .int, .int d⟩
/-- `add_argument(name, action="store_true")` -/
def optFlag (n : String) : Opt := ⟨[n.toList], .storeTrue, .flag false⟩

/-- evaluate_cityscapes.py:25-82 `_common_parser_args`, the optional arguments. -/
def cityOptions : List Opt :=
  [optStr "--output-path", optStr "--categories", optFlag "--pre-seal", optFlag "--nonIS",
   optNum "--max-dist" (35 / 10000), optStrD "--thresholds" "99", optFlag "--apply-nms", optInt "--nproc" 4]

/-- evaluate_cityscapes.py:85-101 `raw_eval_parse_args`. -/
def cityRawParser : Parser :=
  ⟨["cityscapes_path".toList, "pred_path".toList], cityOptions ++ [optNum "--scale" (1 / 2), optFlag "--half"]⟩

/-- evaluate_cityscapes.py:104-109 `thin_eval_parse_args`. -/
def cityThinParser : Parser := ⟨["cityscapes_path".toList, "pred_path".toList], cityOptions⟩

/-- evaluate_sbd.py:14-81 `parse_args`. -/
def sbdParser : Parser :=
  ⟨["sbd_path".toList, "pred_path".toList],
   [optStrD "--pred-suffix" ".png", optStr "--output-path", optStr "--categories", optFlag "--raw",
    optFlag "--pre-seal", optFlag "--nonIS", optNum "--max-dist" (2 / 100), optStrD "--thresholds" "99",
    optFlag "--apply-nms", optInt "--nproc" 4]⟩

/-- evaluate_bsds500.py:14-64 `parse_args`. -/
def bsdsParser : Parser :=
  ⟨["bsds_path".toList, "pred_path".toList],
   [optStr "--output-path", optFlag "--use-val", optNum "--max-dist" (75 / 10000), optStrD "--thresholds" "99",
    optFlag "--raw", optFlag "--apply-nms", optInt "--nproc" 4]⟩

/-- scripts/convert_datasets/cityscapes.py:8-53 `parse_args`. -/
def convCityParser : Parser :=
  ⟨[], [optStrD "--root" "data/cityscapes", ⟨["-o".toList, "--out-dir".toList], .store (.str none), .str "gtEval".toList⟩,
        ⟨["--ext".toList], .store (.str (some ["png".toList, "bin".toList, "tif".toList])), .str "png".toList⟩,
        optFlag "--nonIS", optFlag "--only-full-scale", optInt "--nproc" 4, optFlag "--test_mode"]⟩

/-- scripts/convert_datasets/sbd.py:25-54 `parse_args`. -/
def convSbdParser : Parser :=
  ⟨[], [optStrD "--root" "data/sbd", ⟨["-o".toList, "--out-dir".toList], .store (.str none), .str "gtEval".toList⟩,
        optInt "--nproc" 4, optFlag "--reanno"]⟩

/-- tests/script_bsds500.py:32-52 `parse_args`. -/
def scriptParser : Parser := ⟨["bench_path".toList, "output_dir".toList], [optInt "--nproc" 1]⟩

/-! ## The commands -/

/-- `args.x` used as a string. -/
def strOf (ns : Str → Val) (d : String) : Str := match ns d.toList with
  | .str s => s
  | _ => []
/-- `args.x` used as a string or `None`. -/
def optOf (ns : Str → Val) (d : String) : Option Str := match ns d.toList with
  | .str s => some s
  | _ => none
/-- `args.x` used as an int. -/
def intOf (ns : Str → Val) (d : String) : Int := match ns d.toList with
  | .int z => z
  | _ => 0
/-- `args.x` used as a float. -/
def numOf (ns : Str → Val) (d : String) : ℚ := match ns d.toList with
  | .num q => q
  | _ => 0
/-- `args.x` used as a flag. -/
def flagOf (ns : Str → Val) (d : String) : Bool := match ns d.toList with
  | .flag b => b
  | _ => false

/-- What an evaluation command hands to `evaluate`: the directories, the number of processes, the other options
(`flag` is `--half`, `--raw` or the constant given), and the plan computed from them (`Cli`). -/
structure Call (α : Type) where
  gtDir : Str
  dataset : Str
  pred : Str
  output : Option Str
  nproc : Int
  flag : Bool
  opts : Cli.Opts
  plan : α

/-- The options handed over by `evaluate_cityscapes_raw` (evaluate_cityscapes.py:255-273). -/
def cityRawOpts (ns : Str → Val) : Cli.Opts :=
  { categories := optOf ns "categories", thresholds := strOf ns "thresholds", preSeal := flagOf ns "pre_seal",
    nonIS := flagOf ns "nonIS", maxDist := numOf ns "max_dist", scale := numOf ns "scale", thinning := false,
    nms := flagOf ns "apply_nms", predSuffix := [] }

/-- The options handed over by `evaluate_cityscapes_thin` (evaluate_cityscapes.py:276-294). -/
def cityThinOpts (ns : Str → Val) : Cli.Opts :=
  { categories := optOf ns "categories", thresholds := strOf ns "thresholds", preSeal := flagOf ns "pre_seal",
    nonIS := flagOf ns "nonIS", maxDist := numOf ns "max_dist", scale := 1 / 2, thinning := true,
    nms := flagOf ns "apply_nms", predSuffix := [] }

/-- scripts/evaluate/cityscapes_raw.py:6-7, evaluate_cityscapes.py:255-273 `evaluate_cityscapes_raw`. -/
def cityRawMain (argv : List Str) : Except Nat (Call (Except PyErr (Option Cli.Plan))) :=
  (parse cityRawParser argv).map fun ns =>
    { gtDir := "gtEval".toList, dataset := strOf ns "cityscapes_path", pred := strOf ns "pred_path",
      output := optOf ns "output_path", nproc := intOf ns "nproc",
      flag := flagOf ns "half", opts := cityRawOpts ns
      plan := Cli.cityscapesRaw (flagOf ns "half") (cityRawOpts ns) }

/-- scripts/evaluate/cityscapes_thin.py:6-7, evaluate_cityscapes.py:276-294 `evaluate_cityscapes_thin`. -/
def cityThinMain (argv : List Str) : Except Nat (Call (Except PyErr (Option Cli.Plan))) :=
  (parse cityThinParser argv).map fun ns =>
    { gtDir := "gtEval".toList, dataset := strOf ns "cityscapes_path", pred := strOf ns "pred_path",
      output := optOf ns "output_path", nproc := intOf ns "nproc",
      flag := true, opts := cityThinOpts ns
      plan := Cli.cityscapesThin (cityThinOpts ns) }

/-- The options handed over by `evaluate_sbd` and `evaluate_reanno_sbd`. -/
def sbdOpts (ns : Str → Val) : Cli.Opts :=
  { categories := optOf ns "categories", thresholds := strOf ns "thresholds", preSeal := flagOf ns "pre_seal",
    nonIS := flagOf ns "nonIS", maxDist := numOf ns "max_dist", scale := 1, thinning := !flagOf ns "raw",
    nms := flagOf ns "apply_nms", predSuffix := strOf ns "pred_suffix" }

/-- scripts/evaluate/sbd.py:6-7, evaluate_sbd.py:210-230 `evaluate_sbd`. -/
def sbdMain (argv : List Str) : Except Nat (Call (Except PyErr (Option Cli.Plan))) :=
  (parse sbdParser argv).map fun ns =>
    { gtDir := "gtEval".toList, dataset := strOf ns "sbd_path", pred := strOf ns "pred_path",
      output := optOf ns "output_path", nproc := intOf ns "nproc",
      flag := flagOf ns "raw", opts := sbdOpts ns
      plan := Cli.evaluateSbd (flagOf ns "raw") (sbdOpts ns) }

/-- evaluate_sbd.py:354-373 `evaluate_reanno_sbd`. -/
def reannoMain (argv : List Str) : Except Nat (Call (Except PyErr (Option Cli.Plan))) :=
  (parse sbdParser argv).map fun ns =>
    { gtDir := "gtEval".toList, dataset := strOf ns "sbd_path", pred := strOf ns "pred_path",
      output := optOf ns "output_path", nproc := intOf ns "nproc",
      flag := flagOf ns "raw", opts := sbdOpts ns
      plan := Cli.evaluateReannoSbd (flagOf ns "raw") (sbdOpts ns) }

/-- The arguments of a BSDS evaluation: the split, and the plan. -/
structure BsdsPlan where
  split : Str
  plan : Except PyErr (Option (Evaluators.Attrs × ThresholdArg))

/-- The options handed over by `evaluate_bsds500` (evaluate_bsds500.py:142-162). -/
def bsdsOpts (ns : Str → Val) : Cli.Opts :=
  { categories := none, thresholds := strOf ns "thresholds", preSeal := false, nonIS := false,
    maxDist := numOf ns "max_dist", scale := 1, thinning := false, nms := flagOf ns "apply_nms", predSuffix := [] }

/-- scripts/evaluate/bsds500.py:6-7, evaluate_bsds500.py:92, 142-162 `evaluate_bsds500`; there is no ground-truth
directory argument. -/
def bsdsMain (argv : List Str) : Except Nat (Call BsdsPlan) :=
  (parse bsdsParser argv).map fun ns =>
    { gtDir := [], dataset := strOf ns "bsds_path", pred := strOf ns "pred_path", output := optOf ns "output_path",
      nproc := intOf ns "nproc",
      flag := flagOf ns "raw", opts := bsdsOpts ns
      plan := { split := if flagOf ns "use_val" then "val".toList else "test".toList,
                plan := Cli.bsds (flagOf ns "raw") (bsdsOpts ns) } }

/-- What the Cityscapes conversion command runs. -/
inductive CityJob where
  | convert (a : Convert.CityArgs) (nproc : Int)
  | compare (a : MatlabTest.TestArgs) (nproc : Int)

/-- scripts/convert_datasets/cityscapes.py:56-80 `main`. -/
def convCityMain (argv : List Str) : Except Nat CityJob :=
  (parse convCityParser argv).map fun ns =>
    if !flagOf ns "test_mode" then
      .convert { procDirname := strOf ns "out_dir", root := strOf ns "root", inst := !flagOf ns "nonIS",
                 ext := strOf ns "ext", saveHalfVal := !flagOf ns "only_full_scale", trainRadius := 2,
                 rawValRadius := 2, thinValRadius := 1 } (intOf ns "nproc")
    else
      .compare { procDirname := strOf ns "out_dir", matlabDirname := "gtProc".toList, root := strOf ns "root",
                 inst := !flagOf ns "nonIS", ext := strOf ns "ext" } (intOf ns "nproc")

/-- scripts/convert_datasets/sbd.py:57-67 the arguments. -/
def convSbdMain (argv : List Str) : Except Nat (ConvertSbd.SbdArgs × Int) :=
  (parse convSbdParser argv).map fun ns =>
    ({ root := strOf ns "root", outDir := strOf ns "out_dir", reanno := flagOf ns "reanno" }, intOf ns "nproc")

/-- tests/script_bsds500.py:148-154 `main`: `bench_dir_path`, `output_dir_path`, `nproc`. -/
def scriptMain (argv : List Str) : Except Nat (Str × Str × Int) :=
  (parse scriptParser argv).map fun ns => (strOf ns "bench_path", strOf ns "output_dir", intOf ns "nproc")

end EdgeEval.Argparse
