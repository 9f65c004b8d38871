import Verif.Lemmas.Argparse
import Verif.Props.Cli

/-!
# C83: command lines

Every command line that follows the documented rules (`Spec.CommandLine`) is read as it means, and nothing else is
accepted; and the commands hand what was read to the evaluation and conversion functions.
-/

namespace EdgeEval.Props

open Text Argparse Spec

section Generic

theorem commandLine_options {p : Parser} {argv : List Str} {items : List Item} (h : CommandLine p argv items) :
    ∀ o v, Item.opt o v ∈ items → o ∈ p.options ∧ Typed o.act v := by
  cases h with
  | plain hw => exact fun o v hi => ⟨writtenAll_opt hw o v hi, writtenAll_typed hw o v hi⟩
  | dashes hw _ _ =>
    intro o v hi
    rw [List.mem_append] at hi
    rcases hi with hi | hi
    · exact ⟨writtenAll_opt hw o v hi, writtenAll_typed hw o v hi⟩
    · simp at hi

/-- Reading a command line. -/
theorem parse_eq {p : Parser} (hp : WellFormed p) {argv : List Str} {items : List Item} (h : CommandLine p argv items) :
    parse p argv = if (positionalsOf items).length = p.positionals.length
      then .ok (items.foldl app ⟨p.positionals, defaults p, false, false⟩).ns else .error 2 := by
  have hz := app_left items ⟨p.positionals, defaults p, false, false⟩
  have hfin : ∀ (a b : Except Nat (Str → Val)),
      (if (items.foldl app ⟨p.positionals, defaults p, false, false⟩).left ≠ [] ∨
        (items.foldl app ⟨p.positionals, defaults p, false, false⟩).extras = true then a else b) =
      if (positionalsOf items).length = p.positionals.length then b else a := by
    intro a b
    by_cases hl : (positionalsOf items).length = p.positionals.length
    · rw [if_pos hl, if_neg]
      rw [hz.2, hz.1]
      push Not
      refine ⟨?_, Bool.false_ne_true, ?_⟩
      · rw [hl, List.drop_length]
      · rw [hl]
    · rw [if_neg hl, if_pos]
      rw [hz.2, hz.1]
      rcases Nat.lt_or_ge p.positionals.length (positionalsOf items).length with h' | h'
      · exact Or.inr (Or.inr h')
      · left
        intro e
        have := List.drop_eq_nil_iff.1 e
        exact hl (le_antisymm h' this)
  unfold parse
  cases h with
  | plain hw =>
    obtain ⟨ts, h1, h2⟩ := writtenAll_step hp hw
    have h1 := h1 []
    rw [List.append_nil] at h1
    rw [h1]
    show consume p (ts ++ []) _ = _
    rw [h2, consume]
    exact hfin _ _
  | @dashes front xs more hw hm hc =>
    obtain ⟨ts, h1, h2⟩ := writtenAll_step hp hw
    rw [h1, show (['-', '-'] : Str) = dd from rfl, classifyAll, if_pos rfl, if_neg (show ¬ dd ∈ more from hm)]
    show consume p (ts ++ (.dashes :: more.map .arg)) _ = _
    rw [h2]
    by_cases hx : (xs.foldl app ⟨p.positionals, defaults p, false, false⟩).extras = true ∧ more = []
    · obtain ⟨hx, rfl⟩ := hx
      simp only [List.map_nil, List.append_nil] at hfin ⊢
      rw [← hfin, if_pos (Or.inr hx), consume]
      split
      · rw [consume, if_pos (Or.inr hx)]
      · rw [consume, if_pos (Or.inr rfl)]
    · rw [consume_dashes, consume_args_eq, ← hfin, List.foldl_append]
      rcases hc with hc | ⟨s, hc⟩
      · exact Or.inl hc
      · by_cases hm' : more = []
        · right
          have hxf : (xs.foldl app ⟨p.positionals, defaults p, false, false⟩).extras = false := by
            cases he : (xs.foldl app ⟨p.positionals, defaults p, false, false⟩).extras with
            | false => rfl
            | true => exact absurd ⟨he, hm'⟩ hx
          exact fresh_of_last hc _ hxf
        · exact Or.inl hm'

/-- **C83** A command line written by the rules, with the right number of positional words, is accepted whatever the
order, and every argument gets the value it was given, or its default. -/
theorem C83_accepted (p : Parser) (hp : WellFormed p) (argv : List Str) (items : List Item)
    (h : CommandLine p argv items) (hn : (positionalsOf items).length = p.positionals.length) :
    ∃ ns, parse p argv = .ok ns ∧ Values p items ns := by
  refine ⟨_, by rw [parse_eq hp h, if_pos hn], values_of hp fun o v hi => (commandLine_options h o v hi).1⟩

/-- **C83** Nothing else is accepted, and no word of an accepted command line is ignored: the words are exactly those
of the items read. -/
theorem C83_only (p : Parser) (hp : WellFormed p) (argv : List Str) (ns : Str → Val) (h : parse p argv = .ok ns) :
    ∃ items, CommandLine p argv items ∧ (positionalsOf items).length = p.positionals.length ∧ Values p items ns := by
  unfold parse at h
  cases hc : classifyAll p argv with
  | error e => rw [hc] at h; cases h
  | ok ts =>
    rw [hc] at h
    simp only at h
    obtain ⟨items, hr, hl, hx, he⟩ := consume_ok hp argv ts _ ns hc h
    have hcl : CommandLine p argv items := by
      rcases hr with hr | ⟨front, xs, more, rfl, rfl, hw, hm, hcond⟩
      · exact .plain hr
      · refine .dashes hw hm ?_
        rcases hcond with hcond | hcond | ⟨-, hcond⟩
        · exact Or.inl hcond
        · exact Or.inr hcond
        · cases hcond
    refine ⟨items, hcl, ?_, ?_⟩
    · obtain ⟨h1, h2⟩ := app_left items ⟨p.positionals, defaults p, false, false⟩
      rw [hl] at h1
      rw [hx] at h2
      have h3 := List.drop_eq_nil_iff.1 h1.symm
      have h4 : ¬ p.positionals.length < (positionalsOf items).length := fun hh => by
        have := h2.2 (Or.inr hh)
        cases this
      exact le_antisymm (Nat.le_of_not_lt h4) h3
    · rw [he]
      exact values_of hp fun o v hi => (commandLine_options hcl o v hi).1

/-- **C83** A command line has one meaning. -/
theorem C83_unambiguous (p : Parser) (hp : WellFormed p) (argv : List Str) (xs ys : List Item)
    (hx : CommandLine p argv xs) (hy : CommandLine p argv ys)
    (nx : (positionalsOf xs).length = p.positionals.length) (ny : (positionalsOf ys).length = p.positionals.length) :
    positionalsOf xs = positionalsOf ys ∧
      ∀ o ∈ p.options, ∀ n ∈ o.names, (lastValue n xs).getD o.default = (lastValue n ys).getD o.default := by
  obtain ⟨ns, h1, v1⟩ := C83_accepted p hp argv xs hx nx
  obtain ⟨ns', h2, v2⟩ := C83_accepted p hp argv ys hy ny
  rw [h1] at h2
  cases h2
  refine ⟨?_, fun o ho n hn => by rw [← v1.optional o ho n hn, v2.optional o ho n hn]⟩
  apply List.ext_getElem?
  intro k
  by_cases hk : k < p.positionals.length
  · have e1 : (positionalsOf xs)[k]? = some ((positionalsOf xs)[k]'(by omega)) := List.getElem?_eq_getElem _
    have e2 : (positionalsOf ys)[k]? = some ((positionalsOf ys)[k]'(by omega)) := List.getElem?_eq_getElem _
    have e3 := v1.positional k _ _ (List.getElem?_eq_getElem hk) e1
    have e4 := v2.positional k _ _ (List.getElem?_eq_getElem hk) e2
    rw [e3] at e4
    rw [e1, e2]
    injection e4 with e4
    rw [e4]
  · rw [List.getElem?_eq_none (by omega), List.getElem?_eq_none (by omega)]

/-- **C83** A wrong number of positional words is a usage error. -/
theorem C83_wrong_count (p : Parser) (hp : WellFormed p) (argv : List Str) (items : List Item)
    (h : CommandLine p argv items) (hn : (positionalsOf items).length ≠ p.positionals.length) :
    parse p argv = .error 2 := by
  rw [parse_eq hp h, if_neg hn]

/-- **C83** A word that looks like an option and is none (and is no negative number and has no space) makes the
command fail. -/
theorem C83_unknown (p : Parser) (hp : WellFormed p) (argv : List Str) (w : Str)
    (hw : w ∈ argv.takeWhile (· ≠ ['-', '-'])) (h0 : w.head? = some '-') (h1 : w ≠ ['-']) (hl : ¬ LikeOption p w)
    (hn : ¬ NegativeNumber w) (hs : ' ' ∉ w) (ns : Str → Val) : parse p argv ≠ .ok ns := by
  intro h
  unfold parse at h
  cases hc : classifyAll p argv with
  | error e => rw [hc] at h; cases h
  | ok ts =>
    rw [hc] at h
    simp only at h
    obtain ⟨t, ht, e⟩ := classifyAll_mem hc hw
    rw [classify_unknown hp h0 h1 hl hn hs] at e
    cases e
    exact consume_unknown p ts ht _ ns h

/-- **C83** A shortened option that could be two options is a usage error, wherever it stands. -/
theorem C83_ambiguous (p : Parser) (hp : WellFormed p) (argv : List Str) (w m n : Str)
    (hw : w ∈ argv.takeWhile (· ≠ ['-', '-'])) (hd : ['-', '-'] <+: w) (heq : '=' ∉ w) (hk : ¬ OptionString p w)
    (hm : OptionString p m) (hn : OptionString p n) (hne : m ≠ n) (h1 : w <+: m) (h2 : w <+: n) :
    parse p argv = .error 2 := by
  unfold parse
  cases hc : classifyAll p argv with
  | error e => rw [classifyAll_error hc]
  | ok ts =>
    exfalso
    obtain ⟨t, -, e⟩ := classifyAll_mem hc hw
    rw [classify_ambiguous hp hd heq hk hm hn hne h1 h2] at e
    cases e

/-- **C83** A command that stops while reading its command line stops with status 0, 1 or 2. -/
theorem C83_exit (p : Parser) (argv : List Str) (e : Nat) (h : parse p argv = .error e) : e ≤ 2 := by
  unfold parse at h
  cases hc : classifyAll p argv with
  | error e' => rw [hc] at h; cases h; exact (classifyAll_error hc).le
  | ok ts => rw [hc] at h; exact consume_error p ts _ e h

/-- **C83** `-h` or `--help` after items ends the command with status 0, with any number of positional words. -/
theorem C83_help (p : Parser) (hp : WellFormed p) (front : List Str) (items : List Item) (hw : WrittenAll p front items)
    (w : Str) (h : w = "-h".toList ∨ w = "--help".toList) : parse p (front ++ [w]) = .error 0 := by
  obtain ⟨ts, h1, h2⟩ := writtenAll_step hp hw
  have hm : (w, Target.help) ∈ table p := by
    rcases h with rfl | rfl
    · exact mem_table.2 (Or.inl ⟨rfl, rfl⟩)
    · exact mem_table.2 (Or.inr (Or.inl ⟨rfl, rfl⟩))
  have hd : w ≠ dd := (key_ne_dash hp (optionString_iff.2 ⟨_, hm⟩)).2
  unfold parse
  rw [h1, classifyAll_cons (classify_key hp hm) hd]
  show consume p (ts ++ [_]) _ = _
  rw [h2]
  rfl

end Generic

section Parsers

theorem wf_cityRaw : WellFormed cityRawParser := by constructor <;> decide +kernel
theorem wf_cityThin : WellFormed cityThinParser := by constructor <;> decide +kernel
theorem wf_sbd : WellFormed sbdParser := by constructor <;> decide +kernel
theorem wf_bsds : WellFormed bsdsParser := by constructor <;> decide +kernel
theorem wf_convCity : WellFormed convCityParser := by constructor <;> decide +kernel
theorem wf_convSbd : WellFormed convSbdParser := by constructor <;> decide +kernel
theorem wf_script : WellFormed scriptParser := by constructor <;> decide +kernel

/-- **C83** The parsers of all commands are well-formed, so that the theorems above apply to them. -/
theorem C83_parsers : ∀ p ∈ [cityRawParser, cityThinParser, sbdParser, bsdsParser, convCityParser, convSbdParser,
    scriptParser], WellFormed p := by
  intro p h
  simp only [List.mem_cons, List.not_mem_nil, or_false] at h
  rcases h with rfl | rfl | rfl | rfl | rfl | rfl | rfl
  · exact wf_cityRaw
  · exact wf_cityThin
  · exact wf_sbd
  · exact wf_bsds
  · exact wf_convCity
  · exact wf_convSbd
  · exact wf_script

end Parsers

section Reading

variable {p : Parser} {items : List Item} {ns : Str → Val}

theorem option_value (hp : WellFormed p) (hv : Values p items ns)
    (ht : ∀ o v, Item.opt o v ∈ items → o ∈ p.options ∧ Typed o.act v) {o : Opt} (ho : o ∈ p.options) {n d : Str}
    (hn : n ∈ o.names) (hd : o.dest = d) :
    (lastValue n items = none ∧ ns d = o.default) ∨ ∃ v, lastValue n items = some v ∧ ns d = v ∧ Typed o.act v := by
  have e := hv.optional o ho n hn
  rw [hd] at e
  cases h : lastValue n items with
  | none => rw [h] at e; exact Or.inl ⟨rfl, e⟩
  | some v =>
    rw [h] at e
    refine Or.inr ⟨v, rfl, e, ?_⟩
    obtain ⟨o', h1, h2⟩ := lastValue_mem h
    obtain ⟨h3, h4⟩ := ht o' v h1
    rw [name_inj hp ho h3 hn h2]
    exact h4

theorem read_text (hp : WellFormed p) (hv : Values p items ns)
    (ht : ∀ o v, Item.opt o v ∈ items → o ∈ p.options ∧ Typed o.act v) {o : Opt} (k : Nat) (ho : p.options[k]? = some o)
    {n d : String} (hn : n.toList ∈ o.names) (hd : o.dest = d.toList) {c : Option (List Str)}
    (ha : o.act = .store (.str c)) (hz : o.default = .none) : optOf ns d = textGiven items n none := by
  unfold optOf textGiven
  rcases option_value hp hv ht (List.mem_of_getElem? ho) hn hd with ⟨h1, h2⟩ | ⟨v, h1, h2, h3⟩
  · rw [h1, h2, hz]
  · rw [ha] at h3
    obtain ⟨s, rfl⟩ := h3
    rw [h1, h2]

theorem read_word (hp : WellFormed p) (hv : Values p items ns)
    (ht : ∀ o v, Item.opt o v ∈ items → o ∈ p.options ∧ Typed o.act v) {o : Opt} (k : Nat) (ho : p.options[k]? = some o)
    {n d : String} {s0 : Str} (hn : n.toList ∈ o.names) (hd : o.dest = d.toList) {c : Option (List Str)}
    (ha : o.act = .store (.str c)) (hz : o.default = .str s0) : strOf ns d = wordGiven items n s0 := by
  unfold strOf wordGiven textGiven
  rcases option_value hp hv ht (List.mem_of_getElem? ho) hn hd with ⟨h1, h2⟩ | ⟨v, h1, h2, h3⟩
  · rw [h1, h2, hz]; rfl
  · rw [ha] at h3
    obtain ⟨s, rfl⟩ := h3
    rw [h1, h2]
    rfl

theorem read_int (hp : WellFormed p) (hv : Values p items ns)
    (ht : ∀ o v, Item.opt o v ∈ items → o ∈ p.options ∧ Typed o.act v) {o : Opt} (k : Nat) (ho : p.options[k]? = some o)
    {n d : String} {z0 : Int} (hn : n.toList ∈ o.names) (hd : o.dest = d.toList)
    (ha : o.act = .store .int) (hz : o.default = .int z0) : intOf ns d = intGiven items n z0 := by
  unfold intOf intGiven
  rcases option_value hp hv ht (List.mem_of_getElem? ho) hn hd with ⟨h1, h2⟩ | ⟨v, h1, h2, h3⟩
  · rw [h1, h2, hz]
  · rw [ha] at h3
    obtain ⟨s, rfl⟩ := h3
    rw [h1, h2]

theorem read_num (hp : WellFormed p) (hv : Values p items ns)
    (ht : ∀ o v, Item.opt o v ∈ items → o ∈ p.options ∧ Typed o.act v) {o : Opt} (k : Nat) (ho : p.options[k]? = some o)
    {n d : String} {z0 : ℚ} (hn : n.toList ∈ o.names) (hd : o.dest = d.toList)
    (ha : o.act = .store .float) (hz : o.default = .num z0) : numOf ns d = numGiven items n z0 := by
  unfold numOf numGiven
  rcases option_value hp hv ht (List.mem_of_getElem? ho) hn hd with ⟨h1, h2⟩ | ⟨v, h1, h2, h3⟩
  · rw [h1, h2, hz]
  · rw [ha] at h3
    obtain ⟨s, rfl⟩ := h3
    rw [h1, h2]

theorem read_flag (hp : WellFormed p) (hv : Values p items ns)
    (ht : ∀ o v, Item.opt o v ∈ items → o ∈ p.options ∧ Typed o.act v) {o : Opt} (k : Nat) (ho : p.options[k]? = some o)
    {n d : String} (hn : n.toList ∈ o.names) (hd : o.dest = d.toList)
    (ha : o.act = .storeTrue) (hz : o.default = .flag false) : flagOf ns d = flagGiven items n := by
  unfold flagOf flagGiven
  rcases option_value hp hv ht (List.mem_of_getElem? ho) hn hd with ⟨h1, h2⟩ | ⟨v, h1, h2, h3⟩
  · rw [h1, h2, hz]; rfl
  · rw [ha] at h3
    rw [h1, h2, h3]
    rfl

theorem read_pos (hv : Values p items ns) (k : Nat) {d : String} {s : Str} (hp : p.positionals[k]? = some d.toList)
    (hs : (positionalsOf items)[k]? = some s) : strOf ns d = s := by
  unfold strOf
  rw [hv.positional k _ s hp hs]

end Reading

section Commands

/-- The options of the raw Cityscapes protocol on a command line. -/
def rawOptsGiven (items : List Item) : Cli.Opts :=
  { categories := textGiven items "--categories" none
    thresholds := wordGiven items "--thresholds" "99".toList
    preSeal := flagGiven items "--pre-seal", nonIS := flagGiven items "--nonIS"
    maxDist := numGiven items "--max-dist" (35 / 10000), scale := numGiven items "--scale" (1 / 2)
    thinning := false, nms := flagGiven items "--apply-nms", predSuffix := [] }

/-- The options of the thin Cityscapes protocol on a command line. -/
def thinOptsGiven (items : List Item) : Cli.Opts :=
  { categories := textGiven items "--categories" none
    thresholds := wordGiven items "--thresholds" "99".toList
    preSeal := flagGiven items "--pre-seal", nonIS := flagGiven items "--nonIS"
    maxDist := numGiven items "--max-dist" (35 / 10000), scale := 1 / 2
    thinning := true, nms := flagGiven items "--apply-nms", predSuffix := [] }

/-- The options of the SBD protocols on a command line. -/
def sbdOptsGiven (items : List Item) : Cli.Opts :=
  { categories := textGiven items "--categories" none
    thresholds := wordGiven items "--thresholds" "99".toList
    preSeal := flagGiven items "--pre-seal", nonIS := flagGiven items "--nonIS"
    maxDist := numGiven items "--max-dist" (2 / 100), scale := 1, thinning := !flagGiven items "--raw"
    nms := flagGiven items "--apply-nms", predSuffix := wordGiven items "--pred-suffix" ".png".toList }

/-- The options of the BSDS protocol on a command line. -/
def bsdsOptsGiven (items : List Item) : Cli.Opts :=
  { categories := none
    thresholds := wordGiven items "--thresholds" "99".toList
    preSeal := false, nonIS := false
    maxDist := numGiven items "--max-dist" (75 / 10000), scale := 1, thinning := false
    nms := flagGiven items "--apply-nms", predSuffix := [] }

/-- **C83** `cityscapes_raw.py DATASET PRED [options]`. -/
theorem C83_cityscapes_raw (argv : List Str) (items : List Item) (h : CommandLine cityRawParser argv items)
    (dataset pred : Str) (hpos : positionalsOf items = [dataset, pred]) :
    cityRawMain argv = .ok
      { gtDir := "gtEval".toList, dataset := dataset, pred := pred,
        output := textGiven items "--output-path" none, nproc := intGiven items "--nproc" 4,
        flag := flagGiven items "--half", opts := rawOptsGiven items
        plan := Cli.cityscapesRaw (flagGiven items "--half") (rawOptsGiven items) } := by
  unfold rawOptsGiven
  have hp := wf_cityRaw
  obtain ⟨ns, h1, hv⟩ := C83_accepted _ hp argv items h (by rw [hpos]; rfl)
  have ht := commandLine_options h
  unfold cityRawMain
  rw [h1, ← read_text hp hv ht 0 (n := "--output-path") (d := "output_path") rfl (by decide +kernel) (by decide +kernel) rfl rfl,
    ← read_text hp hv ht 1 (n := "--categories") (d := "categories") rfl (by decide +kernel) (by decide +kernel) rfl rfl,
    ← read_flag hp hv ht 2 (n := "--pre-seal") (d := "pre_seal") rfl (by decide +kernel) (by decide +kernel) rfl rfl,
    ← read_flag hp hv ht 3 (n := "--nonIS") (d := "nonIS") rfl (by decide +kernel) (by decide +kernel) rfl rfl,
    ← read_num hp hv ht 4 (n := "--max-dist") (d := "max_dist") rfl (by decide +kernel) (by decide +kernel) rfl rfl,
    ← read_word hp hv ht 5 (n := "--thresholds") (d := "thresholds") rfl (by decide +kernel) (by decide +kernel) rfl rfl,
    ← read_flag hp hv ht 6 (n := "--apply-nms") (d := "apply_nms") rfl (by decide +kernel) (by decide +kernel) rfl rfl,
    ← read_int hp hv ht 7 (n := "--nproc") (d := "nproc") rfl (by decide +kernel) (by decide +kernel) rfl rfl,
    ← read_num hp hv ht 8 (n := "--scale") (d := "scale") rfl (by decide +kernel) (by decide +kernel) rfl rfl,
    ← read_flag hp hv ht 9 (n := "--half") (d := "half") rfl (by decide +kernel) (by decide +kernel) rfl rfl]
  have e1 : strOf ns "cityscapes_path" = dataset := read_pos hv 0 rfl (by rw [hpos]; rfl)
  have e2 : strOf ns "pred_path" = pred := read_pos hv 1 rfl (by rw [hpos]; rfl)
  subst e1 e2
  rfl

/-- **C83** `cityscapes_thin.py DATASET PRED [options]`. -/
theorem C83_cityscapes_thin (argv : List Str) (items : List Item) (h : CommandLine cityThinParser argv items)
    (dataset pred : Str) (hpos : positionalsOf items = [dataset, pred]) :
    cityThinMain argv = .ok
      { gtDir := "gtEval".toList, dataset := dataset, pred := pred,
        output := textGiven items "--output-path" none, nproc := intGiven items "--nproc" 4,
        flag := true, opts := thinOptsGiven items
        plan := Cli.cityscapesThin (thinOptsGiven items) } := by
  unfold thinOptsGiven
  have hp := wf_cityThin
  obtain ⟨ns, h1, hv⟩ := C83_accepted _ hp argv items h (by rw [hpos]; rfl)
  have ht := commandLine_options h
  unfold cityThinMain
  rw [h1, ← read_text hp hv ht 0 (n := "--output-path") (d := "output_path") rfl (by decide +kernel) (by decide +kernel) rfl rfl,
    ← read_text hp hv ht 1 (n := "--categories") (d := "categories") rfl (by decide +kernel) (by decide +kernel) rfl rfl,
    ← read_flag hp hv ht 2 (n := "--pre-seal") (d := "pre_seal") rfl (by decide +kernel) (by decide +kernel) rfl rfl,
    ← read_flag hp hv ht 3 (n := "--nonIS") (d := "nonIS") rfl (by decide +kernel) (by decide +kernel) rfl rfl,
    ← read_num hp hv ht 4 (n := "--max-dist") (d := "max_dist") rfl (by decide +kernel) (by decide +kernel) rfl rfl,
    ← read_word hp hv ht 5 (n := "--thresholds") (d := "thresholds") rfl (by decide +kernel) (by decide +kernel) rfl rfl,
    ← read_flag hp hv ht 6 (n := "--apply-nms") (d := "apply_nms") rfl (by decide +kernel) (by decide +kernel) rfl rfl,
    ← read_int hp hv ht 7 (n := "--nproc") (d := "nproc") rfl (by decide +kernel) (by decide +kernel) rfl rfl]
  have e1 : strOf ns "cityscapes_path" = dataset := read_pos hv 0 rfl (by rw [hpos]; rfl)
  have e2 : strOf ns "pred_path" = pred := read_pos hv 1 rfl (by rw [hpos]; rfl)
  subst e1 e2
  rfl

/-- The options of the SBD commands. -/
theorem sbd_opts {argv : List Str} {items : List Item} (h : CommandLine sbdParser argv items) {ns : Str → Val}
    (hv : Values sbdParser items ns) :
    sbdOpts ns = sbdOptsGiven items := by
  unfold sbdOptsGiven
  have hp := wf_sbd
  have ht := commandLine_options h
  unfold sbdOpts
  rw [
    ← read_word hp hv ht 0 (n := "--pred-suffix") (d := "pred_suffix") rfl (by decide +kernel) (by decide +kernel) rfl rfl,
    ← read_text hp hv ht 2 (n := "--categories") (d := "categories") rfl (by decide +kernel) (by decide +kernel) rfl rfl,
    ← read_flag hp hv ht 3 (n := "--raw") (d := "raw") rfl (by decide +kernel) (by decide +kernel) rfl rfl,
    ← read_flag hp hv ht 4 (n := "--pre-seal") (d := "pre_seal") rfl (by decide +kernel) (by decide +kernel) rfl rfl,
    ← read_flag hp hv ht 5 (n := "--nonIS") (d := "nonIS") rfl (by decide +kernel) (by decide +kernel) rfl rfl,
    ← read_num hp hv ht 6 (n := "--max-dist") (d := "max_dist") rfl (by decide +kernel) (by decide +kernel) rfl rfl,
    ← read_word hp hv ht 7 (n := "--thresholds") (d := "thresholds") rfl (by decide +kernel) (by decide +kernel) rfl rfl,
    ← read_flag hp hv ht 8 (n := "--apply-nms") (d := "apply_nms") rfl (by decide +kernel) (by decide +kernel) rfl rfl]

/-- **C83** `sbd.py DATASET PRED [options]`. -/
theorem C83_sbd (argv : List Str) (items : List Item) (h : CommandLine sbdParser argv items)
    (dataset pred : Str) (hpos : positionalsOf items = [dataset, pred]) :
    sbdMain argv = .ok
      { gtDir := "gtEval".toList, dataset := dataset, pred := pred,
        output := textGiven items "--output-path" none, nproc := intGiven items "--nproc" 4,
        flag := flagGiven items "--raw", opts := sbdOptsGiven items
        plan := Cli.evaluateSbd (flagGiven items "--raw") (sbdOptsGiven items) } := by
  have hp := wf_sbd
  obtain ⟨ns, h1, hv⟩ := C83_accepted _ hp argv items h (by rw [hpos]; rfl)
  have ht := commandLine_options h
  unfold sbdMain
  rw [h1, ← sbd_opts h hv,
    ← read_text hp hv ht 1 (n := "--output-path") (d := "output_path") rfl (by decide +kernel) (by decide +kernel) rfl rfl,
    ← read_flag hp hv ht 3 (n := "--raw") (d := "raw") rfl (by decide +kernel) (by decide +kernel) rfl rfl,
    ← read_int hp hv ht 9 (n := "--nproc") (d := "nproc") rfl (by decide +kernel) (by decide +kernel) rfl rfl]
  have e1 : strOf ns "sbd_path" = dataset := read_pos hv 0 rfl (by rw [hpos]; rfl)
  have e2 : strOf ns "pred_path" = pred := read_pos hv 1 rfl (by rw [hpos]; rfl)
  subst e1 e2
  rfl

/-- **C83** `bsds500.py DATASET PRED [options]`. -/
theorem C83_bsds (argv : List Str) (items : List Item) (h : CommandLine bsdsParser argv items)
    (dataset pred : Str) (hpos : positionalsOf items = [dataset, pred]) :
    bsdsMain argv = .ok
      { gtDir := [], dataset := dataset, pred := pred,
        output := textGiven items "--output-path" none, nproc := intGiven items "--nproc" 4,
        flag := flagGiven items "--raw", opts := bsdsOptsGiven items
        plan :=
          { split := if flagGiven items "--use-val" then "val".toList else "test".toList
            plan := Cli.bsds (flagGiven items "--raw") (bsdsOptsGiven items) } } := by
  unfold bsdsOptsGiven
  have hp := wf_bsds
  obtain ⟨ns, h1, hv⟩ := C83_accepted _ hp argv items h (by rw [hpos]; rfl)
  have ht := commandLine_options h
  unfold bsdsMain
  rw [h1,
    ← read_text hp hv ht 0 (n := "--output-path") (d := "output_path") rfl (by decide +kernel) (by decide +kernel) rfl rfl,
    ← read_flag hp hv ht 1 (n := "--use-val") (d := "use_val") rfl (by decide +kernel) (by decide +kernel) rfl rfl,
    ← read_num hp hv ht 2 (n := "--max-dist") (d := "max_dist") rfl (by decide +kernel) (by decide +kernel) rfl rfl,
    ← read_word hp hv ht 3 (n := "--thresholds") (d := "thresholds") rfl (by decide +kernel) (by decide +kernel) rfl rfl,
    ← read_flag hp hv ht 4 (n := "--raw") (d := "raw") rfl (by decide +kernel) (by decide +kernel) rfl rfl,
    ← read_flag hp hv ht 5 (n := "--apply-nms") (d := "apply_nms") rfl (by decide +kernel) (by decide +kernel) rfl rfl,
    ← read_int hp hv ht 6 (n := "--nproc") (d := "nproc") rfl (by decide +kernel) (by decide +kernel) rfl rfl]
  have e1 : strOf ns "bsds_path" = dataset := read_pos hv 0 rfl (by rw [hpos]; rfl)
  have e2 : strOf ns "pred_path" = pred := read_pos hv 1 rfl (by rw [hpos]; rfl)
  subst e1 e2
  rfl

/-- **C83** `convert_datasets/cityscapes.py [options]`. -/
theorem C83_convert_cityscapes (argv : List Str) (items : List Item) (h : CommandLine convCityParser argv items)
    (hpos : positionalsOf items = []) :
    convCityMain argv = .ok
      (if flagGiven items "--test_mode" then
        .compare
          { procDirname := wordGiven items "--out-dir" "gtEval".toList, matlabDirname := "gtProc".toList
            root := wordGiven items "--root" "data/cityscapes".toList, inst := !flagGiven items "--nonIS"
            ext := wordGiven items "--ext" "png".toList } (intGiven items "--nproc" 4)
      else
        .convert
          { procDirname := wordGiven items "--out-dir" "gtEval".toList
            root := wordGiven items "--root" "data/cityscapes".toList, inst := !flagGiven items "--nonIS"
            ext := wordGiven items "--ext" "png".toList, saveHalfVal := !flagGiven items "--only-full-scale"
            trainRadius := 2, rawValRadius := 2, thinValRadius := 1 } (intGiven items "--nproc" 4)) := by
  have hp := wf_convCity
  obtain ⟨ns, h1, hv⟩ := C83_accepted _ hp argv items h (by rw [hpos]; rfl)
  have ht := commandLine_options h
  unfold convCityMain
  rw [h1,
    ← read_word hp hv ht 0 (n := "--root") (d := "root") rfl (by decide +kernel) (by decide +kernel) rfl rfl,
    ← read_word hp hv ht 1 (n := "--out-dir") (d := "out_dir") rfl (by decide +kernel) (by decide +kernel) rfl rfl,
    ← read_word hp hv ht 2 (n := "--ext") (d := "ext") rfl (by decide +kernel) (by decide +kernel) rfl rfl,
    ← read_flag hp hv ht 3 (n := "--nonIS") (d := "nonIS") rfl (by decide +kernel) (by decide +kernel) rfl rfl,
    ← read_flag hp hv ht 4 (n := "--only-full-scale") (d := "only_full_scale") rfl (by decide +kernel) (by decide +kernel) rfl rfl,
    ← read_int hp hv ht 5 (n := "--nproc") (d := "nproc") rfl (by decide +kernel) (by decide +kernel) rfl rfl,
    ← read_flag hp hv ht 6 (n := "--test_mode") (d := "test_mode") rfl (by decide +kernel) (by decide +kernel) rfl rfl]
  show Except.ok (if (!flagOf ns "test_mode") = true then _ else _) = Except.ok _
  cases flagOf ns "test_mode" <;> rfl

/-- **C83** `convert_datasets/sbd.py [options]`. -/
theorem C83_convert_sbd (argv : List Str) (items : List Item) (h : CommandLine convSbdParser argv items)
    (hpos : positionalsOf items = []) :
    convSbdMain argv = .ok
      ({ root := wordGiven items "--root" "data/sbd".toList, outDir := wordGiven items "--out-dir" "gtEval".toList
         reanno := flagGiven items "--reanno" }, intGiven items "--nproc" 4) := by
  have hp := wf_convSbd
  obtain ⟨ns, h1, hv⟩ := C83_accepted _ hp argv items h (by rw [hpos]; rfl)
  have ht := commandLine_options h
  unfold convSbdMain
  rw [h1,
    ← read_word hp hv ht 0 (n := "--root") (d := "root") rfl (by decide +kernel) (by decide +kernel) rfl rfl,
    ← read_word hp hv ht 1 (n := "--out-dir") (d := "out_dir") rfl (by decide +kernel) (by decide +kernel) rfl rfl,
    ← read_int hp hv ht 2 (n := "--nproc") (d := "nproc") rfl (by decide +kernel) (by decide +kernel) rfl rfl,
    ← read_flag hp hv ht 3 (n := "--reanno") (d := "reanno") rfl (by decide +kernel) (by decide +kernel) rfl rfl]
  rfl

/-- **C83** `script_bsds500.py BENCH OUT [--nproc N]`. -/
theorem C83_script (argv : List Str) (items : List Item) (h : CommandLine scriptParser argv items)
    (bench out : Str) (hpos : positionalsOf items = [bench, out]) :
    scriptMain argv = .ok (bench, out, intGiven items "--nproc" 1) := by
  have hp := wf_script
  obtain ⟨ns, h1, hv⟩ := C83_accepted _ hp argv items h (by rw [hpos]; rfl)
  have ht := commandLine_options h
  unfold scriptMain
  rw [h1, ← read_int hp hv ht 0 (n := "--nproc") (d := "nproc") rfl (by decide +kernel) (by decide +kernel) rfl rfl]
  have e1 : strOf ns "bench_path" = bench := read_pos hv 0 rfl (by rw [hpos]; rfl)
  have e2 : strOf ns "output_dir" = out := read_pos hv 1 rfl (by rw [hpos]; rfl)
  subst e1 e2
  rfl

end Commands

section Consequences

theorem lastValue_insert {n : Str} {o : Opt} (h : n ∉ o.names) (v : Val) (xs ys : List Item) :
    lastValue n (xs ++ .opt o v :: ys) = lastValue n (xs ++ ys) := by
  induction xs with
  | nil =>
    rw [List.nil_append, List.nil_append, lastValue, if_neg h]
    cases lastValue n ys <;> rfl
  | cons x xs ih =>
    cases x with
    | pos s => rw [List.cons_append, List.cons_append, lastValue, lastValue, ih]
    | opt o' v' => rw [List.cons_append, List.cons_append, lastValue, lastValue, ih]

theorem positionals_insert (o : Opt) (v : Val) (xs ys : List Item) :
    positionalsOf (xs ++ .opt o v :: ys) = positionalsOf (xs ++ ys) := by
  rw [positionals_append, positionals_append]
  rfl

/-- **C83** `--pred-suffix` has no effect on the SBD evaluation: a command line with it and the same command line
without it have the same directories, the same other options and the same plan. -/
theorem C83_sbd_suffix_ignored (argv argv' : List Str) (xs ys : List Item) (v : Val)
    (h : CommandLine sbdParser argv (xs ++ .opt (optStrD "--pred-suffix" ".png") v :: ys))
    (h' : CommandLine sbdParser argv' (xs ++ ys)) (dataset pred : Str) (hpos : positionalsOf (xs ++ ys) = [dataset, pred]) :
    (sbdMain argv).map (fun c => { c with opts := { c.opts with predSuffix := [] } }) =
      (sbdMain argv').map (fun c => { c with opts := { c.opts with predSuffix := [] } }) := by
  rw [C83_sbd argv _ h dataset pred (by rw [positionals_insert, hpos]), C83_sbd argv' _ h' dataset pred hpos]
  have hl : ∀ n : String, n.toList ∉ (optStrD "--pred-suffix" ".png").names →
      lastValue n.toList (xs ++ .opt (optStrD "--pred-suffix" ".png") v :: ys) = lastValue n.toList (xs ++ ys) :=
    fun n hn => lastValue_insert hn v xs ys
  unfold sbdOptsGiven textGiven wordGiven textGiven intGiven numGiven flagGiven
  simp only [Except.map]
  rw [hl "--output-path" (by decide +kernel), hl "--nproc" (by decide +kernel), hl "--raw" (by decide +kernel),
    hl "--categories" (by decide +kernel), hl "--thresholds" (by decide +kernel), hl "--pre-seal" (by decide +kernel),
    hl "--nonIS" (by decide +kernel), hl "--max-dist" (by decide +kernel), hl "--apply-nms" (by decide +kernel)]
  rfl

/-- **C83** No command line makes `evaluate_reanno_sbd` evaluate anything: it exits while reading the command line, or
raises a `TypeError`. -/
theorem C83_reanno_never (argv : List Str) :
    (∃ e, reannoMain argv = .error e) ∨ ∃ c, reannoMain argv = .ok c ∧ c.plan = .error .typeError := by
  unfold reannoMain
  cases h : parse sbdParser argv with
  | error e => exact Or.inl ⟨e, rfl⟩
  | ok ns => exact Or.inr ⟨_, rfl, C42_reanno_command_fails (flagOf ns "raw") (sbdOpts ns)⟩

/-- **C83** The thin protocol has no `--half` and no `--scale`: a command line with one of them (before `--`) is
refused. -/
theorem C83_thin_refuses (argv : List Str) (w : Str) (hw : w = "--half".toList ∨ w = "--scale".toList)
    (h : w ∈ argv.takeWhile (· ≠ ['-', '-'])) : ∃ e, cityThinMain argv = .error e := by
  have hu : ∀ ns, parse cityThinParser argv ≠ .ok ns := by
    intro ns
    refine C83_unknown _ wf_cityThin argv w h ?_ ?_ ?_ ?_ ?_ ns
    · rcases hw with rfl | rfl <;> decide +kernel
    · rcases hw with rfl | rfl <;> decide +kernel
    · rw [likeOption_iff]
      rcases hw with rfl | rfl
      · have : ∀ n ∈ (table cityThinParser).map Prod.fst, ¬ ("--half".toList = n ∨ (n ++ ['=']) <+: "--half".toList ∨
            (n.length = 2 ∧ ¬ ['-', '-'] <+: "--half".toList ∧ n <+: "--half".toList) ∨
            (['-', '-'] <+: "--half".toList ∧ "--half".toList.takeWhile (· ≠ '=') <+: n)) := by decide +kernel
        rintro ⟨x, hx, hc⟩
        exact this _ (List.mem_map_of_mem hx) hc
      · have : ∀ n ∈ (table cityThinParser).map Prod.fst, ¬ ("--scale".toList = n ∨ (n ++ ['=']) <+: "--scale".toList ∨
            (n.length = 2 ∧ ¬ ['-', '-'] <+: "--scale".toList ∧ n <+: "--scale".toList) ∨
            (['-', '-'] <+: "--scale".toList ∧ "--scale".toList.takeWhile (· ≠ '=') <+: n)) := by decide +kernel
        rintro ⟨x, hx, hc⟩
        exact this _ (List.mem_map_of_mem hx) hc
    · rw [← negNumber_iff]
      rcases hw with rfl | rfl <;> decide +kernel
    · rcases hw with rfl | rfl <;> decide +kernel
  unfold cityThinMain
  cases hp : parse cityThinParser argv with
  | error e => exact ⟨e, rfl⟩
  | ok ns => exact absurd hp (hu ns)

/-- **C83** `--n` is refused by every evaluation command: it could be `--nonIS` or `--nproc`; and `--pre`, which the
Cityscapes commands take for `--pre-seal`, is refused by the SBD command, where it could be `--pred-suffix`. -/
theorem C83_short_prefixes (argv : List Str) :
    ("--n".toList ∈ argv.takeWhile (· ≠ ['-', '-']) → cityRawMain argv = .error 2 ∧ cityThinMain argv = .error 2 ∧
      sbdMain argv = .error 2) ∧
    ("--pre".toList ∈ argv.takeWhile (· ≠ ['-', '-']) → sbdMain argv = .error 2) := by
  have key : ∀ (p : Parser), WellFormed p → ∀ (w m n : Str), w ∈ argv.takeWhile (· ≠ ['-', '-']) →
      ['-', '-'] <+: w → '=' ∉ w → w ∉ (table p).map Prod.fst → m ∈ (table p).map Prod.fst →
      n ∈ (table p).map Prod.fst → m ≠ n → w <+: m → w <+: n → parse p argv = .error 2 := by
    intro p hp w m n hw hd heq hk hm hn hne h1 h2
    have hs : ∀ x : Str, x ∈ (table p).map Prod.fst ↔ OptionString p x := by
      intro x
      rw [optionString_iff, List.mem_map]
      constructor
      · rintro ⟨⟨a, t⟩, h, rfl⟩; exact ⟨t, h⟩
      · rintro ⟨t, h⟩; exact ⟨(x, t), h, rfl⟩
    exact C83_ambiguous p hp argv w m n hw hd heq (fun h => hk ((hs w).2 h)) ((hs m).1 hm) ((hs n).1 hn) hne h1 h2
  constructor
  · intro hw
    refine ⟨?_, ?_, ?_⟩
    · unfold cityRawMain
      rw [key _ wf_cityRaw _ "--nonIS".toList "--nproc".toList hw (by decide +kernel) (by decide +kernel)
        (by decide +kernel) (by decide +kernel) (by decide +kernel) (by decide +kernel) (by decide +kernel)
        (by decide +kernel)]
      rfl
    · unfold cityThinMain
      rw [key _ wf_cityThin _ "--nonIS".toList "--nproc".toList hw (by decide +kernel) (by decide +kernel)
        (by decide +kernel) (by decide +kernel) (by decide +kernel) (by decide +kernel) (by decide +kernel)
        (by decide +kernel)]
      rfl
    · unfold sbdMain
      rw [key _ wf_sbd _ "--nonIS".toList "--nproc".toList hw (by decide +kernel) (by decide +kernel)
        (by decide +kernel) (by decide +kernel) (by decide +kernel) (by decide +kernel) (by decide +kernel)
        (by decide +kernel)]
      rfl
  · intro hw
    unfold sbdMain
    rw [key _ wf_sbd _ "--pre-seal".toList "--pred-suffix".toList hw (by decide +kernel) (by decide +kernel)
      (by decide +kernel) (by decide +kernel) (by decide +kernel) (by decide +kernel) (by decide +kernel)
      (by decide +kernel)]
    rfl

end Consequences

section Examples

/-- A way to check a shortened option. -/
theorem abbreviates_of {p : Parser} {w n : Str} {o : Opt} (h1 : ['-', '-'] <+: w) (h2 : w ≠ ['-', '-']) (h3 : '=' ∉ w)
    (h4 : w ∉ (table p).map Prod.fst) (h5 : n ∈ o.names) (h6 : w <+: n)
    (h7 : ∀ m ∈ (table p).map Prod.fst, w <+: m → m = n) : Abbreviates p w o := by
  have hs : ∀ x : Str, OptionString p x → x ∈ (table p).map Prod.fst := by
    intro x hx
    obtain ⟨t, ht⟩ := optionString_iff.1 hx
    exact List.mem_map.2 ⟨(x, t), ht, rfl⟩
  exact ⟨h1, h2, h3, fun h => h4 (hs _ h), n, h5, h6, fun m hm => h7 m (hs m hm)⟩

/-- `cityscapes_raw.py root --thresh=[.5] - --half --max-dist 1 --max-dist .25`: shortened and joined options, a
positional between options, an option given twice. -/
def exArgv : List Str :=
  ["root".toList, "--thresh=[.5]".toList, "-".toList, "--half".toList, "--max-dist".toList, "1".toList,
   "--max-dist".toList, ".25".toList]

def exItems : List Item :=
  [.pos "root".toList, .opt (optStrD "--thresholds" "99") (.str "[.5]".toList), .pos "-".toList,
   .opt (optFlag "--half") (.flag true), .opt (optNum "--max-dist" (35 / 10000)) (.num 1),
   .opt (optNum "--max-dist" (35 / 10000)) (.num (1 / 4))]

theorem exQuarter : floatLit ".25".toList = .ok (1 / 4) := by
  rw [show floatLit ".25".toList = .ok (((25 : Nat) : ℚ) / 10 ^ 2) from rfl]
  norm_num

theorem exCommandLine : CommandLine cityRawParser exArgv exItems := by
  have m4 : optNum "--max-dist" (35 / 10000) ∈ cityRawParser.options := List.mem_of_getElem? (i := 4) rfl
  have m5 : optStrD "--thresholds" "99" ∈ cityRawParser.options := List.mem_of_getElem? (i := 5) rfl
  have m9 : optFlag "--half" ∈ cityRawParser.options := List.mem_of_getElem? (i := 9) rfl
  have hm : Denotes cityRawParser "--max-dist".toList (optNum "--max-dist" (35 / 10000)) :=
    ⟨m4, Or.inl (by decide +kernel)⟩
  refine .plain ?_
  refine .cons (a := ["root".toList]) (.pos (Or.inl (by decide +kernel))) ?_
  refine .cons (a := ["--thresh=[.5]".toList])
    (.joined (w := "--thresh".toList) (s := "[.5]".toList) (c := .str none)
      ⟨m5, Or.inr (abbreviates_of (n := "--thresholds".toList) (by decide +kernel) (by decide +kernel)
        (by decide +kernel) (by decide +kernel) (by decide +kernel) (by decide +kernel) (by decide +kernel))⟩ rfl rfl) ?_
  refine .cons (a := ["-".toList]) (.pos (Or.inr (Or.inl rfl))) ?_
  refine .cons (a := ["--half".toList]) (.flag ⟨m9, Or.inl (by decide +kernel)⟩ rfl) ?_
  refine .cons (a := ["--max-dist".toList, "1".toList])
    (.spaced (c := .float) hm rfl (Or.inl (by decide +kernel)) ⟨1, by rfl, rfl⟩) ?_
  refine .cons (a := ["--max-dist".toList, ".25".toList])
    (.spaced (c := .float) hm rfl (Or.inl (by decide +kernel)) ⟨1 / 4, exQuarter, rfl⟩) ?_
  exact .nil

/-- The last `--max-dist` wins, the others keep their defaults. -/
example : ∃ c, cityRawMain exArgv = .ok c ∧ c.dataset = "root".toList ∧ c.pred = "-".toList ∧ c.output = none ∧
    c.nproc = 4 ∧ numGiven exItems "--max-dist" (35 / 10000) = 1 / 4 ∧
    wordGiven exItems "--thresholds" "99".toList = "[.5]".toList ∧ flagGiven exItems "--half" = true ∧
    flagGiven exItems "--nonIS" = false :=
  ⟨_, C83_cityscapes_raw _ _ exCommandLine _ _ rfl, rfl, rfl, by rfl, by rfl, by rfl, by rfl, by rfl, by rfl⟩

/-- `--` before words that look like options. -/
example : CommandLine scriptParser ["--nproc=2".toList, "--".toList, "-odd".toList, "--nproc".toList]
    [.opt (optInt "--nproc" 1) (.int 2), .pos "-odd".toList, .pos "--nproc".toList] := by
  refine .dashes (front := ["--nproc=2".toList]) (items := [.opt (optInt "--nproc" 1) (.int 2)])
    (more := ["-odd".toList, "--nproc".toList]) ?_ (by decide +kernel) (Or.inl (by simp))
  refine .cons (a := ["--nproc=2".toList]) (.joined (w := "--nproc".toList) (s := "2".toList) (c := .int)
    ⟨List.mem_of_getElem? (i := 0) rfl, Or.inl (by decide +kernel)⟩ rfl ⟨2, by rfl, rfl⟩) .nil

/-- A short option with its value attached. -/
example : CommandLine convCityParser ["-oout".toList]
    [.opt ⟨["-o".toList, "--out-dir".toList], .store (.str none), .str "gtEval".toList⟩ (.str "out".toList)] :=
  .plain (.cons (a := ["-oout".toList]) (.attached (w := "-o".toList) (s := "out".toList) (c := .str none)
    (List.mem_of_getElem? (i := 1) rfl) (by decide +kernel) rfl (by decide +kernel) (by decide +kernel) rfl rfl) .nil)

/-- A negative number is a value, a misspelt option is refused, `--pre` is short for `--pre-seal` in Cityscapes. -/
example : ValueWord cityRawParser "-0.5".toList ∧ "--haf".toList ∈ ["--haf".toList].takeWhile (· ≠ ['-', '-']) ∧
    Abbreviates cityRawParser "--pre".toList (optFlag "--pre-seal") := by
  refine ⟨Or.inr (Or.inr ⟨?_, Or.inl ((negNumber_iff _).1 (by decide +kernel))⟩), by decide +kernel,
    abbreviates_of (n := "--pre-seal".toList) (by decide +kernel) (by decide +kernel) (by decide +kernel)
      (by decide +kernel) (by decide +kernel) (by decide +kernel) (by decide +kernel)⟩
  rw [likeOption_iff]
  have : ∀ n ∈ (table cityRawParser).map Prod.fst, ¬ ("-0.5".toList = n ∨ (n ++ ['=']) <+: "-0.5".toList ∨
      (n.length = 2 ∧ ¬ ['-', '-'] <+: "-0.5".toList ∧ n <+: "-0.5".toList) ∨
      (['-', '-'] <+: "-0.5".toList ∧ "-0.5".toList.takeWhile (· ≠ '=') <+: n)) := by decide +kernel
  rintro ⟨x, hx, hc⟩
  exact this _ (List.mem_map_of_mem hx) hc

end Examples

end EdgeEval.Props
