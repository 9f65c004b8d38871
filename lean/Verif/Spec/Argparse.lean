import Verif.Model.Argparse

/-!
# What a command line means

The rules of a GNU-style command line, as documented for the commands: options in any order, between or after the
positional words, the last occurrence of an option wins, an option may be shortened to a prefix that no other
option starts with, its value is the next word or follows an equals sign, and `--` ends the options.
-/

namespace EdgeEval.Spec

open Text Argparse

/-- A string that is the complete name of some option of the command (the help included). -/
def OptionString (p : Parser) (n : Str) : Prop :=
  n = "-h".toList ∨ n = "--help".toList ∨ ∃ o ∈ p.options, n ∈ o.names

/-- The parser is set up as `argparse` requires: no name is used twice, names are `-c` or `--word` without an
equals sign, flags have long names only. -/
structure WellFormed (p : Parser) : Prop where
  attrs : (p.positionals ++ p.options.map Opt.dest).Nodup
  names : ("-h".toList :: "--help".toList :: (p.options.map Opt.names).flatten).Nodup
  shape : ∀ o ∈ p.options, ∀ n ∈ o.names,
    n.head? = some '-' ∧ '=' ∉ n ∧
      (['-', '-'] <+: n ∧ n ≠ ['-', '-'] ∨ n.length = 2 ∧ n ≠ ['-', '-'])
  flags : ∀ o ∈ p.options, o.act = .storeTrue → ∀ n ∈ o.names, ['-', '-'] <+: n

/-- `w` is a shortened long option: exactly one option string starts with it, and it belongs to `o`. -/
def Abbreviates (p : Parser) (w : Str) (o : Opt) : Prop :=
  ['-', '-'] <+: w ∧ w ≠ ['-', '-'] ∧ '=' ∉ w ∧ ¬ OptionString p w ∧
    ∃ n ∈ o.names, w <+: n ∧ ∀ m, OptionString p m → w <+: m → m = n

/-- `w` names the option `o`. -/
def Denotes (p : Parser) (w : Str) (o : Opt) : Prop := o ∈ p.options ∧ (w ∈ o.names ∨ Abbreviates p w o)

/-- `s` looks like a negative number: `-12`, `-.5`, `-3.25`. -/
def NegativeNumber (s : Str) : Prop :=
  ∃ a b : Str, (∀ c ∈ a ++ b, 48 ≤ c.toNat ∧ c.toNat ≤ 57) ∧
    (s = '-' :: a ∧ a ≠ [] ∨ s = '-' :: a ++ '.' :: b ∧ b ≠ [])

/-- `s` begins like an option of the command: a name, a name and an equals sign, a short name and something
attached, or a prefix of a long name. -/
def LikeOption (p : Parser) (s : Str) : Prop :=
  ∃ n, OptionString p n ∧
    (s = n ∨ (∃ v, s = n ++ '=' :: v) ∨ (n.length = 2 ∧ ¬ ['-', '-'] <+: s ∧ n <+: s) ∨
      (['-', '-'] <+: s ∧ s.takeWhile (· ≠ '=') <+: n))

/-- A word that is a value, not an option. -/
def ValueWord (p : Parser) (s : Str) : Prop :=
  s.head? ≠ some '-' ∨ s = ['-'] ∨ ¬ LikeOption p s ∧ (NegativeNumber s ∨ ' ' ∈ s)

/-- The text `s` is a value of the type, and `v` is the value. -/
def Denoted : Conv → Str → Val → Prop
  | .str none, s, v => v = .str s
  | .str (some l), s, v => v = .str s ∧ s ∈ l
  | .int, s, v => ∃ z, intLit s = .ok z ∧ v = .int z
  | .float, s, v => ∃ q, floatLit s = .ok q ∧ v = .num q

/-- A part of a command line: a positional word, or an option with its value. -/
inductive Item where
  | pos (s : Str)
  | opt (o : Opt) (v : Val)

/-- The words of an item. -/
inductive Written (p : Parser) : List Str → Item → Prop
  | pos {s} : ValueWord p s → Written p [s] (.pos s)
  | flag {w o} : Denotes p w o → o.act = .storeTrue → Written p [w] (.opt o (.flag true))
  | spaced {w o c s v} : Denotes p w o → o.act = .store c → ValueWord p s → Denoted c s v →
      Written p [w, s] (.opt o v)
  | joined {w o c s v} : Denotes p w o → o.act = .store c → Denoted c s v → Written p [w ++ '=' :: s] (.opt o v)
  | attached {w o c s v} : o ∈ p.options → w ∈ o.names → w.length = 2 → s ≠ [] → s.head? ≠ some '=' →
      o.act = .store c → Denoted c s v → Written p [w ++ s] (.opt o v)

/-- The words of a list of items. -/
inductive WrittenAll (p : Parser) : List Str → List Item → Prop
  | nil : WrittenAll p [] []
  | cons {a b x xs} : Written p a x → WrittenAll p b xs → WrittenAll p (a ++ b) (x :: xs)

/-- The positional words. -/
def positionalsOf : List Item → List Str
  | [] => []
  | .pos s :: rest => s :: positionalsOf rest
  | .opt _ _ :: rest => positionalsOf rest

/-- The value of the last occurrence of the option with the name `n`. -/
def lastValue (n : Str) : List Item → Option Val
  | [] => none
  | .pos _ :: rest => lastValue n rest
  | .opt o v :: rest => (lastValue n rest).or (if n ∈ o.names then some v else none)

/-- A command line is a list of items, then possibly `--` and positional words only (a lone `--` at the end must
follow a positional word). -/
inductive CommandLine (p : Parser) : List Str → List Item → Prop
  | plain {argv items} : WrittenAll p argv items → CommandLine p argv items
  | dashes {front items more} : WrittenAll p front items → ['-', '-'] ∉ more →
      (more ≠ [] ∨ ∃ s, items.getLast? = some (.pos s)) →
      CommandLine p (front ++ ['-', '-'] :: more) (items ++ more.map .pos)

/-- What the command gets: the positional words in order, the last value of every option, or its default. -/
structure Values (p : Parser) (items : List Item) (ns : Str → Val) : Prop where
  positional : ∀ (k : Nat) (d s : Str), p.positionals[k]? = some d → (positionalsOf items)[k]? = some s → ns d = .str s
  optional : ∀ o ∈ p.options, ∀ n ∈ o.names, ns o.dest = (lastValue n items).getD o.default

/-- The text given to the option `n`, or `dflt`. -/
def textGiven (items : List Item) (n : String) (dflt : Option Str) : Option Str :=
  match lastValue n.toList items with
  | some (.str s) => some s
  | _ => dflt

/-- The text given to the option `n`, or `dflt`, for an option with a default. -/
def wordGiven (items : List Item) (n : String) (dflt : Str) : Str := (textGiven items n (some dflt)).getD dflt

/-- The integer given to the option `n`, or `dflt`. -/
def intGiven (items : List Item) (n : String) (dflt : Int) : Int :=
  match lastValue n.toList items with
  | some (.int z) => z
  | _ => dflt

/-- The number given to the option `n`, or `dflt`. -/
def numGiven (items : List Item) (n : String) (dflt : ℚ) : ℚ :=
  match lastValue n.toList items with
  | some (.num q) => q
  | _ => dflt

/-- Was the flag `n` given? -/
def flagGiven (items : List Item) (n : String) : Bool := (lastValue n.toList items).isSome

end EdgeEval.Spec
