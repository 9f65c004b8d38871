import Verif.Lemmas.CStringProg

/-!
# C75: the native strings behave as values, free what they allocate, and the uses that break them
-/

namespace EdgeEval.Props

open EdgeEval.CString EdgeEval.CString.Spec Text

/-- **C75 (values).** Every program of safe statements (`Spec.Runs`), from the empty heap, runs without touching memory that is not its own, without a failing
assertion, without overflow, and afterwards every string shows exactly the value the value semantics gives it: `length ()`, the characters, the closing NUL,
`operator[]` at every position, and the C string behind `text ()`. Names without a value have no object. -/
theorem C75_values {ops : List Op} {e : Env} (h : Runs Env.empty ops e) :
    ∃ s, run ops St.empty = .ok s ∧ (∀ x, e x = none → s.objs x = none) ∧
      ∀ x v, e x = some v → ∃ o, s.objs x = some o ∧ o.length = v.length ∧
        rdN o.ptr s.mem v.length 0 = .ok v ∧ rd o.ptr v.length s.mem = .ok nul ∧ cstr o.ptr 0 s.mem = .ok (cpart v) ∧
        (∀ i (hi : i < v.length), index i o s.mem = .ok v[i]) ∧ ∀ i, v.length ≤ i → index i o s.mem = .error .assertion := by
  obtain ⟨s, h1, hi⟩ := run_ok Inv.empty h
  refine ⟨s, h1, hi.dead, fun x v hx => ?_⟩
  obtain ⟨o, ho, hr, -, -⟩ := hi.live x v hx
  have hl : o.length = v.length := hr.choose_spec.2.2.1
  refine ⟨o, ho, hl, ?_, ?_, ?_, ?_, ?_⟩
  · exact rdN_has hr.has.prefix
  · have h1 := hr.has.drop (k := v.length) (by simp)
    rw [List.drop_left] at h1
    exact h1.head
  · have := hr.cstr (off := 0) (by simp)
    simpa [cpart] using this
  · intro i hlt
    unfold index
    rw [if_pos (by omega)]
    have h1 := hr.has.drop (k := i) (by simp; omega)
    rw [List.drop_append_of_le_length (by omega), List.drop_eq_getElem_cons hlt] at h1
    exact h1.head
  · intro i hge
    unfold index
    rw [if_neg (by omega)]

/-- **C75 (no leak).** After any such program the blocks of the heap are exactly the texts of the living strings, one block each; when all strings are
destroyed the heap is empty. -/
theorem C75_no_leak {ops : List Op} {e : Env} (h : Runs Env.empty ops e) :
    ∃ s, run ops St.empty = .ok s ∧ (∀ p, s.mem.blk p ≠ none ↔ ∃ x o, s.objs x = some o ∧ o.ptr = p) ∧
      (∀ x y ox oy, s.objs x = some ox → s.objs y = some oy → ox.ptr = oy.ptr → x = y) ∧
      ((∀ x, e x = none) → ∀ p, s.mem.blk p = none) := by
  obtain ⟨s, h1, hi⟩ := run_ok Inv.empty h
  refine ⟨s, h1, fun p => ⟨fun hp => ?_, fun ⟨x, o, ho, hp⟩ => ?_⟩, hi.inj, fun he p => ?_⟩
  · cases hb : s.mem.blk p with
    | none => exact absurd hb hp
    | some b => exact hi.owned p b hb
  · obtain ⟨v, -, ⟨b, hb, -⟩, -⟩ := hi.some_of ho
    rw [← hp, hb]; simp
  · by_contra hn
    cases hb : s.mem.blk p with
    | none => exact hn hb
    | some b =>
      obtain ⟨x, o, ho, -⟩ := hi.owned p b hb
      rw [hi.dead x (he x)] at ho
      cases ho

/-- A program that uses constructors, `append`, a format with arguments, assignment, `nextLine` and destructors. -/
def sampleProgram : List Op :=
  [.new 0, .appChar 0 'a', .appN 0 2 (.lit ['b', 'c', 'd']), .copy 1 0, .fmt 2 [.text ['x', '='], .dec (-5), .chars (.text 1 1)], .assign 0 2,
    .nextLine 1 ['p', 'q', '\n', 'r'], .del 2]

/-- `sampleProgram` is safe. -/
theorem sampleProgram_runs : Runs Env.empty sampleProgram
    ((((((((Env.empty.set 0 (some [])).set 0 (some ['a'])).set 0 (some ['a', 'b', 'c'])).set 1 (some ['a', 'b', 'c'])).set 2
      (some ['x', '=', '-', '5', 'b', 'c'])).set 0 (some ['x', '=', '-', '5', 'b', 'c'])).set 1 (some ['p', 'q'])).set 2 none) :=
  .cons (.new rfl) (.cons (.appChar rfl (by decide)) (.cons (.appLit rfl (by decide) (by decide)) (.cons (.copy rfl rfl)
    (.cons (Step.fmt (s := ['x', '=', '-', '5', 'b', 'c']) rfl (by decide +kernel) (.inl (by decide)) (by decide))
      (.cons (Step.assign rfl rfl (by decide) (by decide)) (.cons (Step.nextLine rfl (by decide) (by decide)) (.cons (.del rfl) (.nil _))))))))

example : ∃ s, run sampleProgram St.empty = .ok s ∧ ∃ o, s.objs 0 = some o ∧ cstr o.ptr 0 s.mem = .ok ['x', '=', '-', '5', 'b', 'c'] := by
  obtain ⟨s, h1, -, h2⟩ := C75_values sampleProgram_runs
  obtain ⟨o, ho, -, -, -, hc, -⟩ := h2 0 _ rfl
  exact ⟨s, h1, o, ho, hc⟩

example : ∃ s, run (sampleProgram ++ [.del 0, .del 1]) St.empty = .ok s ∧ ∀ p, s.mem.blk p = none := by
  have hr := Runs.append sampleProgram_runs (b := [.del 0, .del 1]) (.cons (.del rfl) (.cons (.del rfl) (.nil _)))
  obtain ⟨s, h1, -, -, h2⟩ := C75_no_leak hr
  refine ⟨s, h1, h2 fun x => ?_⟩
  by_cases h0 : x = 0
  · subst h0; rfl
  by_cases h1 : x = 1
  · subst h1; rfl
  by_cases h2 : x = 2
  · subst h2; rfl
  simp [Env.set, Env.empty, h0, h1, h2]

/-- **C75 (comparison).** The comparison operators order the texts up to the first NUL: equal exactly when these are equal, less exactly when the first is
lexicographically smaller (by character code, a proper prefix is smaller). -/
theorem C75_compare {ops : List Op} {e : Env} (h : Runs Env.empty ops e) {a b : Arg} {u w : Str}
    (ha : Spec.arg e a = some u) (hb : Spec.arg e b = some w) :
    ∃ s ca cb c, run ops St.empty = .ok s ∧ s.arg a = .ok ca ∧ s.arg b = .ok cb ∧ CString.compare ca cb s.mem = .ok c ∧
      (c = 0 ↔ u = w) ∧ (c < 0 ↔ List.Lex (fun x y : Char => x.toNat < y.toNat) u w) ∧
      (0 < c ↔ List.Lex (fun x y : Char => x.toNat < y.toNat) w u) := by
  obtain ⟨s, h1, hi⟩ := run_ok Inv.empty h
  obtain ⟨ca, hca, hca2⟩ := arg_ok hi ha
  obtain ⟨cb, hcb, hcb2⟩ := arg_ok hi hb
  refine ⟨s, ca, cb, strcmp u w, h1, hca, hcb, ?_, ?_⟩
  · unfold CString.compare
    rw [hca2 s.mem fun _ _ _ _ _ => rfl, hcb2 s.mem fun _ _ _ _ _ => rfl]
    rfl
  · exact strcmp_ok u w

example : ∃ s ca cb c, run sampleProgram St.empty = .ok s ∧ s.arg (.text 0 0) = .ok ca ∧ s.arg (.lit ['x', '>']) = .ok cb ∧
    CString.compare ca cb s.mem = .ok c ∧ c < 0 := by
  obtain ⟨s, ca, cb, c, h1, h2, h3, h4, -, h5, -⟩ := C75_compare sampleProgram_runs (a := .text 0 0) (b := .lit ['x', '>'])
    (u := ['x', '=', '-', '5', 'b', 'c']) (w := ['x', '>']) rfl rfl
  exact ⟨s, ca, cb, c, h1, h2, h3, h4, h5.2 (.cons (.rel (by decide)))⟩

/-- **C75 (lines).** `nextLine` on a file without NUL characters, however long its lines are: it answers `false` exactly at the end of the file, the string
becomes the text up to the first newline (without it) and the file is left behind that newline; the old content of the string does not matter. -/
theorem C75_next_line {ops : List Op} {e : Env} (h : Runs Env.empty ops e) {x : Nat} {v file : Str} (hx : e x = some v) (hn : nul ∉ file)
    (hl : file.length ≤ 2 ^ 28) :
    ∃ s o ans rest o' m', run ops St.empty = .ok s ∧ s.objs x = some o ∧ nextLine file o s.mem = .ok (ans, rest, o', m') ∧
      (ans = false ↔ file = []) ∧ rdN o'.ptr m' o'.length 0 = .ok (file.takeWhile (· ≠ '\n')) ∧
      rest = file.drop ((file.takeWhile (· ≠ '\n')).length + 1) := by
  obtain ⟨s, h1, hi⟩ := run_ok Inv.empty h
  obtain ⟨o, ho, hr, hs, -⟩ := hi.live x v hx
  obtain ⟨o', m', h2, -, h3, -⟩ := nextLine_ok hr hi.fresh hn hl hs
  refine ⟨s, o, _, _, o', m', h1, ho, h2, by simp, ?_, rfl⟩
  rw [h3.choose_spec.2.2.1]
  exact rdN_has h3.has.prefix

example : ∃ s o ans rest o' m', run sampleProgram St.empty = .ok s ∧ s.objs 1 = some o ∧
    nextLine (List.replicate 300 'z' ++ ['\n', 'y']) o s.mem = .ok (ans, rest, o', m') ∧ ans = true ∧
    rdN o'.ptr m' o'.length 0 = .ok (List.replicate 300 'z') ∧ rest = ['y'] := by
  obtain ⟨s, o, ans, rest, o', m', h1, h2, h3, h4, h5, h6⟩ := C75_next_line sampleProgram_runs (x := 1) (v := ['p', 'q'])
    (file := List.replicate 300 'z' ++ ['\n', 'y']) rfl (by decide +kernel) (by decide +kernel)
  have e1 : (List.replicate 300 'z' ++ ['\n', 'y']).takeWhile (· ≠ '\n') = List.replicate 300 'z' := by decide +kernel
  refine ⟨s, o, ans, rest, o', m', h1, h2, h3, ?_, by rw [h5, e1], ?_⟩
  · cases hans : ans with
    | true => rfl
    | false => exact absurd (h4.1 hans) (by decide)
  · rw [h6, e1]; decide +kernel

/-! ### Uses that break a string -/

/-- **C75 (long arguments).** A format with arguments that prints 127 characters or more uses the `va_list` a second time (String.cc:166), which is undefined;
whatever the string and the heap. -/
theorem C75_long_format (o : Obj) (m : Mem) (fs : List Piece) (s : Str) (hr : render m fs = .ok s) (ha : ∃ f ∈ fs, ∀ t, f ≠ .text t)
    (hl : 127 ≤ s.length) : appendF fs o m = .error .vaReuse := by
  apply appendF_long o fs hr _ hl
  obtain ⟨f, hf, ht⟩ := ha
  rw [List.any_eq_true]
  refine ⟨f, hf, ?_⟩
  cases f with
  | text t => exact absurd rfl (ht t)
  | dec _ => rfl
  | chars _ => rfl

/-- **C75 (long assignment).** `y = x` goes through a `%s` format: it is undefined for every text of 127 characters or more. -/
theorem C75_long_assignment (v : Str) (hn : nul ∉ v) (h1 : 127 ≤ v.length) (h2 : v.length ≤ 2 ^ 28) :
    run [.fmt 0 [.text v], .new 1, .assign 1 0] St.empty = .error .vaReuse := by
  have hna : ¬ hasArgs [.text v] := by simp [hasArgs]
  have hruns : Runs Env.empty [.fmt 0 [.text v], .new 1] ((Env.empty.set 0 (some (cpart v))).set 1 (some [])) := by
    refine .cons (Step.fmt (s := v) rfl (by simp [printed]) (.inr ⟨hna, h2⟩) h2) (.cons (Step.new rfl) (.nil _))
  obtain ⟨s, hs, hi⟩ := run_ok Inv.empty hruns
  have hc : cpart v = v := takeWhile_of_notMem hn
  obtain ⟨o0, ho0, hr0, -, -⟩ := hi.live 0 (cpart v) rfl
  obtain ⟨o1, ho1, hr1, -, -⟩ := hi.live 1 [] rfl
  have hrun : run [.fmt 0 [.text v], .new 1, .assign 1 0] St.empty = run [.fmt 0 [.text v], .new 1] St.empty >>= fun s => step s (.assign 1 0) := by
    simp only [run]
    cases step St.empty (.fmt 0 [.text v]) with
    | error _ => rfl
    | ok s1 =>
      change (step s1 (.new 1) >>= _) = ((step s1 (.new 1) >>= _) >>= _)
      cases step s1 (.new 1) with
      | error _ => rfl
      | ok s2 =>
        change (step s2 (.assign 1 0) >>= _) = step s2 (.assign 1 0)
        cases step s2 (.assign 1 0) <;> rfl
  rw [hrun, hs]
  change step s (.assign 1 0) = _
  rw [step, St.get, ho1]
  change (s.get 0 >>= _) = _
  rw [St.get, ho0]
  change s.put 1 (assign o0 o1 s.mem) = _
  obtain ⟨m1, c1, n1, q1, r1⟩ := clear_ok hr1
  have hne : o0.ptr ≠ o1.ptr := fun hp => absurd (hi.inj _ _ _ _ ho0 ho1 hp) (by decide)
  have hrend : render m1 [.chars (.at o0.ptr 0)] = .ok (cpart (cpart v)) := by
    have := (hr0.congr (q1 _ hne)).cstr (off := 0) (by simp)
    exact render_one this
  rw [hc, hc] at hrend
  have : assign o0 o1 s.mem = .error .vaReuse := by
    unfold assign
    rw [c1]
    exact C75_long_format _ _ _ _ hrend ⟨_, List.mem_singleton.2 rfl, fun _ hh => by cases hh⟩ h1
  rw [this]; rfl

example : run [.fmt 0 [.text (List.replicate 127 'a')], .new 1, .assign 1 0] St.empty = .error .vaReuse :=
  C75_long_assignment _ (by decide +kernel) (by decide +kernel) (by decide +kernel)

/-- One character fewer is fine. -/
example : ∃ s o, run [.fmt 0 [.text (List.replicate 126 'a')], .new 1, .assign 1 0] St.empty = .ok s ∧ s.objs 1 = some o ∧
    cstr o.ptr 0 s.mem = .ok (List.replicate 126 'a') := by
  have hr : Runs Env.empty [.fmt 0 [.text (List.replicate 126 'a')], .new 1, .assign 1 0] _ :=
    .cons (Step.fmt (s := List.replicate 126 'a') rfl (by simp [printed]) (.inl (by decide +kernel)) (by decide +kernel))
      (.cons (Step.new rfl) (.cons (Step.assign rfl rfl (by decide) (by decide +kernel)) (.nil _)))
  obtain ⟨s, h1, -, h2⟩ := C75_values hr
  obtain ⟨o, ho, -, -, -, hc, -⟩ := h2 1 _ rfl
  exact ⟨s, o, h1, ho, by rw [hc]; decide +kernel⟩

/-- **C75 (own text).** `x = x.text ()` (and `x = x.text () + 0` in any disguise) empties `x`: the text is cleared before it is read. -/
theorem C75_own_text {ops : List Op} {e : Env} (h : Runs Env.empty ops e) {x : Nat} {v : Str} (hx : e x = some v) :
    ∃ s s' o, run ops St.empty = .ok s ∧ step s (.assignC x (some (.text x 0))) = .ok s' ∧ s'.objs x = some o ∧ o.length = 0 := by
  obtain ⟨s, h1, hi⟩ := run_ok Inv.empty h
  obtain ⟨o, ho, hr, hs, -⟩ := hi.live x v hx
  obtain ⟨m1, c1, n1, q1, r1⟩ := clear_ok hr
  have hrend : render m1 [.chars (.at o.ptr 0)] = .ok [] := by
    have := r1.cstr (off := 0) (by simp)
    exact render_one this
  have hf1 : Fresh m1 := hi.fresh.upd (Upd.inPlace (o' := { o with length := 0 }) rfl n1 q1) (hr.lt hi.fresh)
  obtain ⟨o', m', h2, -, h3, -⟩ := appendF_ok r1 hf1 _ hrend (.inl (by simp)) (by simp only [List.length_nil]; omega)
  refine ⟨s, ⟨m', fun y => if y = x then some o' else s.objs y⟩, o', h1, ?_, by simp, by simpa using h3.choose_spec.2.2.1⟩
  rw [step, St.get, ho]
  change (s.arg (.text x 0) >>= _) = _
  rw [St.arg, St.get, ho]
  change s.put x (assignC (some (.at o.ptr 0)) o s.mem) = _
  have : assignC (some (.at o.ptr 0)) o s.mem = .ok (o', m') := by
    unfold assignC
    rw [c1]; exact h2
  rw [this]; rfl

example : ∃ s s' o, run sampleProgram St.empty = .ok s ∧ step s (.assignC 0 (some (.text 0 0))) = .ok s' ∧ s'.objs 0 = some o ∧ o.length = 0 :=
  C75_own_text sampleProgram_runs rfl

/-- **C75 (appending a part of itself).** `x.append (n, x.text () + off)` reads freed memory whenever the text has to move. -/
theorem C75_self_append {ops : List Op} {e : Env} (h : Runs Env.empty ops e) {x : Nat} {v : Str} (hx : e x = some v) (n off : Nat) (hn : 0 < n)
    (hn2 : n ≤ 2 ^ 28) :
    ∃ s o, run ops St.empty = .ok s ∧ s.objs x = some o ∧
      (o.size < n + v.length + 1 → step s (.appN x n (.text x off)) = .error .dangling) := by
  obtain ⟨s, h1, hi⟩ := run_ok Inv.empty h
  obtain ⟨o, ho, hr, hs, hl⟩ := hi.live x v hx
  refine ⟨s, o, h1, ho, fun hgrow => ?_⟩
  have hlim : limit = 2 ^ 28 := rfl
  have hlen : o.length = v.length := hr.choose_spec.2.2.1
  have hlt := hr.lt hi.fresh
  obtain ⟨b, hb, hrest⟩ := id hr
  obtain ⟨m1, g1, n1, q1, r1⟩ := copy_block hr hi.fresh (size := (o.size + (n + o.length + 1)) % 2 ^ 32)
    (by rw [Nat.mod_eq_of_lt (by omega)]; omega) (by omega)
  obtain ⟨m2, f2, n2, d2, q2⟩ := free_ok (m := m1) (p := o.ptr) (b := b) (by rw [q1 _ (by omega)]; exact hb)
  have hg : grow ((n + o.length + 1) % 2 ^ 32) o s.mem = .ok (⟨o.length, (o.size + (n + o.length + 1)) % 2 ^ 32, s.mem.next⟩, m2) := by
    rw [Nat.mod_eq_of_lt (by omega : n + o.length + 1 < 2 ^ 32)]
    unfold grow
    rw [if_pos (by omega)]
    change (memcpy _ _ _ _ _ _ >>= _) = _
    rw [g1]
    change (free o.ptr m1 >>= _) = _
    rw [f2]; rfl
  rw [step, St.get, ho]
  change (s.arg (.text x off) >>= _) = _
  rw [St.arg, St.get, ho]
  change s.put x (appendN n (.blk o.ptr off) o s.mem) = _
  rw [appendN_eq _ _ _ _ hg, if_pos hn]
  have : copyIn n (.blk o.ptr off) ⟨o.length, (o.size + (n + o.length + 1)) % 2 ^ 32, s.mem.next⟩ m2 = .error .dangling := by
    rw [copyIn]
    unfold memcpy
    rw [if_neg (fun hh => by have := hh.1; simp only at this; omega)]
    obtain ⟨k, rfl⟩ : ∃ k, n = k + 1 := ⟨n - 1, by omega⟩
    change (rdN o.ptr m2 (k + 1) off >>= _) = _
    rw [rdN]
    have : rd o.ptr off m2 = .error .dangling := by
      unfold rd; rw [d2]
    rw [this]; rfl
  rw [this]; rfl

/-- Sixteen characters fill a new string; appending its first character to itself moves the text. -/
example : (match run [.new 0, .appN 0 16 (.lit (List.replicate 16 'a')), .appN 0 1 (.text 0 0)] St.empty with
    | .error f => decide (f = .dangling)
    | .ok _ => false) = true := by decide +kernel

/-- **C75 (line starting with NUL).** When the first character of the rest of the file is NUL, `nextLine` looks at the character before the text. -/
theorem C75_nul_line {ops : List Op} {e : Env} (h : Runs Env.empty ops e) {x : Nat} {v : Str} (hx : e x = some v) (rest : Str) :
    ∃ s, run ops St.empty = .ok s ∧ step s (.nextLine x (nul :: rest)) = .error .outOfBounds := by
  obtain ⟨s, h1, hi⟩ := run_ok Inv.empty h
  obtain ⟨o, ho, hr, hs, -⟩ := hi.live x v hx
  refine ⟨s, h1, ?_⟩
  obtain ⟨m1, c1, n1, q1, r1⟩ := clear_ok hr
  have hbuf : ∃ buf rest', fgets (nul :: rest) = some (nul :: buf, rest') := by
    unfold fgets
    rw [if_neg (by simp)]
    have e1 : ((nul :: rest).take 127).takeWhile (· ≠ '\n') = nul :: (rest.take 126).takeWhile (· ≠ '\n') := by
      rw [List.take_succ_cons, List.takeWhile_cons_of_pos (by decide)]
    simp only [e1]
    split
    · exact ⟨_, _, rfl⟩
    · exact ⟨_, _, rfl⟩
  obtain ⟨buf, rest', hb⟩ := hbuf
  have hap : appendN 0 (.loc []) { o with length := 0 } m1 = .ok ({ o with length := 0 }, m1) := by
    unfold appendN grow
    have : 0 < o.size := r1.choose_spec.2.2.2.1
    simp only [Nat.zero_add]
    rw [if_neg (by norm_num; omega)]
    rfl
  have hnl : nextLine (nul :: rest) o s.mem = .error .outOfBounds := by
    unfold nextLine
    rw [c1]
    change lineLoop ((nul :: rest).length + 1) _ _ _ = _
    rw [lineLoop, hb]
    have e2 : (nul :: buf).takeWhile (· ≠ nul) = [] := List.takeWhile_cons_of_neg (by simp)
    simp only [e2]
    change (appendN 0 (.loc []) _ m1 >>= _) = _
    rw [hap]
    change (rd o.ptr ((0 + 2 ^ 32 - 1) % 2 ^ 32) m1 >>= _) = _
    obtain ⟨b, hb1, hsz, -⟩ := r1
    simp only at hb1 hsz
    have : rd o.ptr ((0 + 2 ^ 32 - 1) % 2 ^ 32) m1 = .error .outOfBounds := by
      unfold rd
      rw [hb1]
      simp only
      rw [if_neg (by rw [hsz]; omega)]
    rw [this]; rfl
  rw [step, St.get, ho]
  change s.put x ((nextLine (nul :: rest) o s.mem).map _) = _
  rw [hnl]; rfl

example : ∃ s, run sampleProgram St.empty = .ok s ∧ step s (.nextLine 0 [nul, 'a', '\n']) = .error .outOfBounds :=
  C75_nul_line sampleProgram_runs rfl _

end EdgeEval.Props
