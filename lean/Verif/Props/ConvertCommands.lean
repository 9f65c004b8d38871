import Verif.Model.ConvertCommands
import Verif.Props.Argparse
import Verif.Props.ConvertFail
import Verif.Props.ConvertDone
import Verif.Props.SbdFiles
import Verif.Props.MatlabTest
import Verif.Props.CommandsMissing
import Verif.Props.ConvertSbdOnce

/-!
# C85: the conversion commands end to end
-/

namespace EdgeEval.Props

open Spec Text Evaluators Samples Datasets PathU MatFile Argparse EdgeEval.Convert EdgeEval.ConvertSbd EdgeEval.MatlabTest
  EdgeEval.ConvertCommands

/-! ## Cityscapes -/

section

/-- A run without an exception has listed every phase. -/
theorem phases_listed (lib : DTLib) (fuel : Nat) (pics : Pictures) : ∀ (ps : List (Except PyErr (List Action))) (t : Convert.Trace),
    runPhases lib fuel pics ps = some t → t.err = none → ∃ P : List (List Action), ps = P.map .ok
  | [], _, _, _ => ⟨[], rfl⟩
  | .error e :: _, t, h, he => by
    simp only [runPhases, Option.some.injEq] at h
    subst h; cases he
  | .ok acts :: ps, t, h, he => by
    simp only [runPhases] at h
    cases h1 : runActions lib fuel pics acts with
    | none => rw [h1] at h; cases h
    | some t1 =>
      rw [h1] at h
      simp only at h
      cases h2 : t1.err with
      | some e => rw [h2] at h; simp only [Option.some.injEq] at h; subst h; rw [he] at h2; cases h2
      | none =>
        rw [h2] at h
        simp only at h
        cases h3 : runPhases lib fuel pics ps with
        | none => rw [h3] at h; cases h
        | some t2 =>
          rw [h3] at h
          simp only [Option.map_some, Option.some.injEq] at h
          subst h
          obtain ⟨P, hP⟩ := phases_listed lib fuel pics ps t2 h3 he
          exact ⟨acts :: P, by rw [hP]; rfl⟩

theorem reordered_ok (order : Nat → List Action → List Action) (ho : ∀ k l, (order k l).Perm l) (P : List (List Action)) :
    ∃ P', reordered order (P.map .ok) = P'.map .ok ∧ List.Forall₂ List.Perm P P' := by
  refine ⟨P.mapIdx fun i l => order i l, ?_, ?_⟩
  · unfold reordered
    apply List.ext_getElem
    · simp
    · intro i h1 h2
      simp [Except.map]
  · rw [List.forall₂_iff_get]
    refine ⟨by simp, fun i h1 h2 => ?_⟩
    simpa using (ho i _).symm

/-- A complete conversion stays complete when several processes share the work of the phases. -/
theorem city_any_order {lib : DTLib} {fuel : Nat} {h : CityHost} {order : Nat → List Action → List Action}
    (ho : ∀ k l, (order k l).Perm l) {a : CityArgs} (nproc : Int) (hp : a.procDirname ≠ [])
    (hm : h.mkdir (pjoin a.root a.procDirname) = .ok ()) (hex : h.ex (gtDir a) = true) {t : Convert.Trace}
    (ht : convertCity lib fuel h.pics h.tree true a = some t) (he : t.err = none) (hn : (t.written.map Prod.fst).Nodup) :
    ∃ t', cityIn lib fuel h order a nproc = some t' ∧ t'.err = none ∧ (t'.written.map Prod.fst).Nodup ∧
      ∀ x, x ∈ t'.written ↔ x ∈ t.written := by
  unfold cityIn
  rw [if_neg hp, hm]
  simp only
  split
  · next hc =>
    have hrun : runPhases lib fuel h.pics (cityPhases h.tree a) = some t := by
      unfold convertCity at ht
      rw [if_neg] at ht
      · exact ht
      · rintro (h0 | h0 | h0)
        · exact hp h0
        · cases h0
        · exact h0 hc.2.2
    obtain ⟨P, hP⟩ := phases_listed lib fuel h.pics _ t hrun he
    obtain ⟨P', h1, h2⟩ := reordered_ok order ho P
    rw [hP] at hrun
    obtain ⟨t', g1, g2, g3, g4⟩ := C53_order_irrelevant lib fuel h.pics P P' h2 t hrun he hn
    refine ⟨t', by rw [hP, h1]; exact g1, g2, g3, fun x => ?_⟩
    have := g4 x.1
    rw [show x = (x.1, x.2) from rfl, ← finally_iff g3, ← finally_iff hn, this]
  · rw [hex]
    exact ⟨t, ht, he, hn, fun _ => Iff.rfl⟩

/-- What the command `convert_datasets/cityscapes.py` converts, read off its options. -/
def cityArgsGiven (items : List Item) : CityArgs where
  procDirname := wordGiven items "--out-dir" "gtEval".toList
  root := wordGiven items "--root" "data/cityscapes".toList
  inst := !flagGiven items "--nonIS"
  ext := wordGiven items "--ext" "png".toList
  saveHalfVal := !flagGiven items "--only-full-scale"
  trainRadius := 2
  rawValRadius := 2
  thinValRadius := 1

theorem city_converts {lib : DTLib} {fuel : Nat} {h : CityHost} {order : Nat → List Action → List Action}
    {sched1 sched2 : List PoolEvent} {argv : List Str} {items : List Item} (hl : CommandLine convCityParser argv items)
    (hpos : positionalsOf items = []) (hmode : flagGiven items "--test_mode" = false) :
    ConvertCommands.city lib fuel h order sched1 sched2 argv =
      (cityIn lib fuel h order (cityArgsGiven items) (intGiven items "--nproc" 4)).map .converted := by
  unfold ConvertCommands.city
  rw [C83_convert_cityscapes argv items hl hpos, hmode]
  rfl

/-- **C85** `convert_datasets/cityscapes.py [options]` (format PNG or TIFF): with a complete dataset and an output directory that
can be made, the command ends without an exception, whatever the number of processes and the order in which they take
the files, and it has written exactly the files of a complete conversion, each once: the trainId pictures, the edge maps the
options ask for (radius 2, thin maps with radius 1; none is empty) and the three lists of samples. -/
theorem C85_convert_cityscapes (lib : DTLib) (h : CityHost) (hne : NoEmptyPictures h.pics) (argv : List Str) (items : List Item)
    (hl : CommandLine convCityParser argv items) (hpos : positionalsOf items = [])
    (hmode : flagGiven items "--test_mode" = false) (root out : Str)
    (hroot : root = wordGiven items "--root" "data/cityscapes".toList) (hout : out = wordGiven items "--out-dir" "gtEval".toList)
    (hr : CityRoot root) (hp : out ≠ []) (hm : h.mkdir (pjoin root out) = .ok ())
    (hex : h.ex (slashed [root, "gtFine".toList]) = true)
    (hx : wordGiven items "--ext" "png".toList = "png".toList ∨ wordGiven items "--ext" "png".toList = "tif".toList)
    (poly label : Str → List Str) (ht : CityTree h.tree root poly label)
    (H2 : SoundDT lib true 0 2) (H1 : SoundDT lib true 0 1)
    (hgt : ∀ n ∈ label "train".toList, GoodSample h.pics (cityArgsGiven items) "train".toList n 34)
    (hgv : ∀ n ∈ label "val".toList, GoodSample h.pics (cityArgsGiven items) "val".toList n
      (if flagGiven items "--only-full-scale" then 34 else 67)) :
    ∃ F, ∀ fuel, F ≤ fuel → ∀ order : Nat → List Action → List Action, (∀ k l, (order k l).Perm l) → ∀ sched1 sched2,
      ∃ written, ConvertCommands.city lib fuel h order sched1 sched2 argv = some (.converted ⟨written, none⟩) ∧
        (∀ x, x ∈ written ↔ Expected lib fuel h.pics (cityArgsGiven items) poly label x) ∧ (written.map Prod.fst).Nodup ∧
        JobsOk lib fuel h.pics (cityArgsGiven items) label (IsJob (cityArgsGiven items)) ∧
        ∀ f enc, (f, .edges enc) ∈ written → 0 < (encSize enc).1 ∧ 0 < (encSize enc).2 := by
  subst hroot hout
  have hgv' : ∀ n ∈ label "val".toList, GoodSample h.pics (cityArgsGiven items) "val".toList n
      (if (cityArgsGiven items).saveHalfVal then 67 else 34) := by
    intro n hn
    have := hgv n hn
    show GoodSample _ _ _ _ (if (!flagGiven items "--only-full-scale") = true then 67 else 34)
    revert this
    cases flagGiven items "--only-full-scale" <;> exact id
  obtain ⟨F1, h1⟩ := C53_complete lib h.pics hne h.tree (cityArgsGiven items) poly label hr hp hx ht 2 2 rfl rfl rfl
    (by simpa using H2) (by simpa using H2) H1 hgt hgv'
  obtain ⟨F2, h2⟩ := jobs_sized lib h.pics hne (cityArgsGiven items) label hr hx (fun s n h => ht.names s n (Or.inr h)) 2 2 rfl rfl rfl
    (by simpa using H2) (by simpa using H2) H1 hgt hgv'
  refine ⟨max F1 F2, fun fuel hf order ho sched1 sched2 => ?_⟩
  obtain ⟨t, t1, t2, t3, t4⟩ := h1 fuel (by omega)
  have hg : gtDir (cityArgsGiven items) = slashed [wordGiven items "--root" "data/cityscapes".toList, "gtFine".toList] :=
    pjoin_slash hr.1 (by unfold Relative; decide)
  obtain ⟨t', g1, g2, g3, g4⟩ := city_any_order ho (intGiven items "--nproc" 4) hp hm (by rw [hg]; exact hex) t1 t2 t4
  have h2' := h2 fuel (by omega)
  refine ⟨t'.written, ?_, fun x => (g4 x).trans (t3 x), g3, fun s o ho n hn => (h2' s o ho n hn).imp fun _ h => h.1,
    fun f enc hf => ?_⟩
  rotate_left
  · rcases (t3 _).1 ((g4 _).1 hf) with ⟨s, -, n, -, hx⟩ | ⟨s, o, ho, n, hn, enc', he, hx⟩ | ⟨s, -, hx⟩
    · simp at hx
    · simp only [Prod.mk.injEq, Content.edges.injEq] at hx
      obtain ⟨-, rfl⟩ := hx
      obtain ⟨enc', e1, e2⟩ := h2' s o ho n hn
      rw [he] at e1
      simp only [Except.ok.injEq, Option.some.injEq, Prod.mk.injEq, true_and] at e1
      rw [e1]; exact e2
    · simp at hx
  rw [city_converts hl hpos hmode, g1]
  obtain ⟨w, e⟩ := t'
  simp only at g2
  subst g2
  rfl

/-- **C85** When the conversion stops before it writes anything: while the command line is read (status at most 2), with an
empty `--out-dir` or without the directory `gtFine` (`AssertionError`), and when the output directory cannot be made (the
error of making it). -/
theorem C85_convert_cityscapes_stops (lib : DTLib) (fuel : Nat) (h : CityHost) (order : Nat → List Action → List Action)
    (sched1 sched2 : List PoolEvent) (argv : List Str) :
    (∀ e, parse convCityParser argv = .error e →
      ConvertCommands.city lib fuel h order sched1 sched2 argv = some (.exit e) ∧ e ≤ 2) ∧
    ∀ items, CommandLine convCityParser argv items → positionalsOf items = [] → flagGiven items "--test_mode" = false →
      ∀ root out, root = wordGiven items "--root" "data/cityscapes".toList →
        out = wordGiven items "--out-dir" "gtEval".toList → DirArg root →
        (out = [] → ConvertCommands.city lib fuel h order sched1 sched2 argv = some (.converted ⟨[], some .assertionError⟩)) ∧
        (out ≠ [] → ∀ e, h.mkdir (pjoin root out) = .error e →
          ConvertCommands.city lib fuel h order sched1 sched2 argv = some (.converted ⟨[], some e⟩)) ∧
        (out ≠ [] → h.mkdir (pjoin root out) = .ok () → h.ex (slashed [root, "gtFine".toList]) = false →
          ConvertCommands.city lib fuel h order sched1 sched2 argv = some (.converted ⟨[], some .assertionError⟩)) := by
  refine ⟨fun e he => ⟨?_, C83_exit _ _ _ he⟩, fun items hl hpos hmode root out hroot hout hr => ?_⟩
  · unfold ConvertCommands.city convCityMain
    rw [he]
    rfl
  · subst hroot hout
    have hg : gtDir (cityArgsGiven items) = slashed [wordGiven items "--root" "data/cityscapes".toList, "gtFine".toList] :=
      pjoin_slash hr (by unfold Relative; decide)
    rw [city_converts hl hpos hmode]
    unfold cityIn
    generalize hA : cityArgsGiven items = a at hg ⊢
    have e1 : wordGiven items "--root" "data/cityscapes".toList = a.root := by rw [← hA]; rfl
    have e2 : wordGiven items "--out-dir" "gtEval".toList = a.procDirname := by rw [← hA]; rfl
    rw [e1, e2]
    rw [e1] at hg
    refine ⟨fun h0 => ?_, fun h0 e he => ?_, fun h0 hm hx => ?_⟩
    · rw [if_pos h0]; rfl
    · rw [if_neg h0, he]; rfl
    · rw [if_neg h0, hm, hg, hx]
      simp only [Bool.false_eq_true, false_and, and_false, if_false]
      rw [C53_checks _ _ _ _ _ _ (Or.inr (Or.inl rfl))]
      rfl

/-- **C85** (finding) `--ext bin`, a documented choice, is of no use: with one process (`--nproc 1`), a readable first training
sample ends the command with `TypeError` after the trainId pictures; no edge map and no list is written. -/
theorem C85_convert_cityscapes_bin (lib : DTLib) (fuel : Nat) (h : CityHost) (order : Nat → List Action → List Action)
    (sched1 sched2 : List PoolEvent) (argv : List Str) (items : List Item) (hl : CommandLine convCityParser argv items)
    (hpos : positionalsOf items = []) (hmode : flagGiven items "--test_mode" = false) (root out : Str)
    (hroot : root = wordGiven items "--root" "data/cityscapes".toList) (hout : out = wordGiven items "--out-dir" "gtEval".toList)
    (hr : CityRoot root) (hp : out ≠ []) (hm : h.mkdir (pjoin root out) = .ok ())
    (hex : h.ex (slashed [root, "gtFine".toList]) = true) (hx : wordGiven items "--ext" "png".toList = "bin".toList)
    (hn : intGiven items "--nproc" 4 ≤ 1) (poly label : Str → List Str) (ht : AnnotTree h.tree root poly label) (n : Str)
    (rest : List Str) (hl1 : label "train".toList = n :: rest)
    (hg : GoodSample h.pics (cityArgsGiven items) "train".toList n 34) :
    ∃ written, ConvertCommands.city lib fuel h order sched1 sched2 argv = some (.converted ⟨written, some .typeError⟩) ∧
      ∀ x, x ∈ written ↔ TrainFile (cityArgsGiven items) poly x := by
  subst hroot hout
  have hg0 : gtDir (cityArgsGiven items) = slashed [wordGiven items "--root" "data/cityscapes".toList, "gtFine".toList] :=
    pjoin_slash hr.1 (by unfold Relative; decide)
  obtain ⟨⟨w, e⟩, t1, t2, t3⟩ := C53_bin_fails lib fuel h.pics h.tree (cityArgsGiven items) poly label hr hp hx ht 2 rfl n rest hl1 hg
  simp only at t2
  subst t2
  refine ⟨w, ?_, t3⟩
  rw [city_converts hl hpos hmode]
  unfold cityIn
  have hm' : h.mkdir (pjoin (cityArgsGiven items).root (cityArgsGiven items).procDirname) = .ok () := hm
  rw [if_neg (show (cityArgsGiven items).procDirname ≠ [] from hp), hm']
  simp only
  rw [if_neg (by omega), hg0, hex, t1]
  rfl

/-- What `convert_datasets/cityscapes.py --test_mode` compares, read off its options. -/
def testArgsGiven (items : List Item) : TestArgs where
  procDirname := wordGiven items "--out-dir" "gtEval".toList
  matlabDirname := "gtProc".toList
  root := wordGiven items "--root" "data/cityscapes".toList
  inst := !flagGiven items "--nonIS"
  ext := wordGiven items "--ext" "png".toList

/-- **C85** `convert_datasets/cityscapes.py --test_mode [options]` compares the converted files with those of MATLAB
(`C79_reports` says what it reports); without `--nonIS` it is refused with `AssertionError`, whatever the files. -/
theorem C85_test_mode (lib : DTLib) (fuel : Nat) (h : CityHost) (order : Nat → List Action → List Action)
    (sched1 sched2 : List PoolEvent) (argv : List Str) (items : List Item) (hl : CommandLine convCityParser argv items)
    (hpos : positionalsOf items = []) (hmode : flagGiven items "--test_mode" = true) :
    (ConvertCommands.city lib fuel h order sched1 sched2 argv =
      (testAgainstMatlab h.legacy h.arrays h.tree (testArgsGiven items) (intGiven items "--nproc" 4).toNat sched1 sched2).map
        .compared) ∧
    (flagGiven items "--nonIS" = false →
      ConvertCommands.city lib fuel h order sched1 sched2 argv = some (.compared (.error .assertionError))) := by
  have h1 : ConvertCommands.city lib fuel h order sched1 sched2 argv =
      (testAgainstMatlab h.legacy h.arrays h.tree (testArgsGiven items) (intGiven items "--nproc" 4).toNat sched1 sched2).map
        .compared := by
    unfold ConvertCommands.city
    rw [C83_convert_cityscapes argv items hl hpos, hmode]
    rfl
  refine ⟨h1, fun hi => ?_⟩
  rw [h1, C79_instances_refused _ _ _ _ _ _ _ (show (!flagGiven items "--nonIS") = true by rw [hi]; rfl)]
  rfl

end

/-! ## SBD -/

section

/-- The second run, like the first, ends without an exception, with the same files. -/
def AsComplete (x y : Option ConvertSbd.Trace) : Prop :=
  ∀ w, x = some ⟨w, none⟩ → ∃ w', y = some ⟨w', none⟩ ∧ w'.Perm w

theorem asComplete_refl (x : Option ConvertSbd.Trace) : AsComplete x x := fun w h => ⟨w, h, List.Perm.refl w⟩

theorem runJobs_all {job : Str → Run (List (Str × SbdContent))} : ∀ (l : List Str) (w : List (Str × SbdContent)),
    runJobs job l = some ⟨w, none⟩ → ∀ n ∈ l, ∃ r, job n = .ok (some r)
  | [], _, _, _, hn => by cases hn
  | m :: l, w, h, n, hn => by
    unfold runJobs at h
    cases h1 : job m with
    | error e => rw [h1] at h; simp at h
    | ok o =>
      cases o with
      | none => rw [h1] at h; simp at h
      | some r =>
        rw [h1] at h
        simp only [Option.map_eq_some_iff] at h
        obtain ⟨⟨w', e⟩, h2, h3⟩ := h
        simp only [ConvertSbd.Trace.mk.injEq] at h3
        obtain ⟨-, rfl⟩ := h3
        rcases List.mem_cons.1 hn with rfl | hn
        · exact ⟨r, h1⟩
        · exact runJobs_all l w' h2 n hn

theorem runJobs_perm (job : Str → Run (List (Str × SbdContent))) {l l' : List Str} (hp : l'.Perm l) :
    AsComplete (runJobs job l) (runJobs job l') := by
  intro w h
  have hall := runJobs_all l w h
  let out : Str → List (Str × SbdContent) := fun n => match job n with | .ok (some r) => r | _ => []
  have hout : ∀ n ∈ l, job n = .ok (some (out n)) := by
    intro n hn
    obtain ⟨r, hr⟩ := hall n hn
    simp only [out, hr]
  have h1 := runJobs_ok job out l hout
  rw [h1] at h
  simp only [Option.some.injEq, ConvertSbd.Trace.mk.injEq, and_true] at h
  subst h
  exact ⟨_, runJobs_ok job out l' (fun n hn => hout n (hp.mem_iff.1 hn)), hp.flatMap_right out⟩

theorem asComplete_andThen {x y x' y' : Option ConvertSbd.Trace} (h1 : AsComplete x x') (h2 : AsComplete y y') :
    AsComplete (andThen x y) (andThen x' y') := by
  intro w h
  unfold andThen at h
  cases hx : x with
  | none => rw [hx] at h; cases h
  | some t =>
    obtain ⟨w1, e⟩ := t
    rw [hx] at h
    cases e with
    | some e => simp at h
    | none =>
      simp only [Option.map_eq_some_iff] at h
      obtain ⟨⟨w2, e⟩, hy, h3⟩ := h
      simp only [ConvertSbd.Trace.mk.injEq] at h3
      obtain ⟨rfl, rfl⟩ := h3
      obtain ⟨v1, g1, p1⟩ := h1 w1 hx
      obtain ⟨v2, g2, p2⟩ := h2 w2 hy
      refine ⟨v1 ++ v2, ?_, p1.append p2⟩
      unfold andThen
      rw [g1, g2]
      rfl

theorem asComplete_reading {α : Type} (x : Except PyErr α) {f g : α → Option ConvertSbd.Trace} (h : ∀ a, AsComplete (f a) (g a)) :
    AsComplete (reading x f) (reading x g) := by
  cases x with
  | error e => exact asComplete_refl _
  | ok a => exact h a

/-- A complete conversion stays complete when several processes share the samples. -/
theorem sbd_any_order (lib : DTLib) (fuel : Nat) (fs : SbdFs) (mkdir : Str → Except PyErr Unit) {order : Nat → List Str → List Str}
    (ho : ∀ k l, (order k l).Perm l) (a : SbdArgs) (nproc : Int) (hm : mkdir (saveDirOf a) = .ok ()) :
    AsComplete (convertSbd lib fuel fs a) (sbdIn lib fuel fs mkdir order a nproc) := by
  unfold sbdIn convertSbd
  rw [hm]
  have ho' : ∀ k l, ((if nproc > 1 then order else fun _ l => l) k l).Perm l := by
    intro k l
    split
    · exact ho k l
    · exact List.Perm.refl l
  generalize (if nproc > 1 then order else fun _ l => l) = order' at ho' ⊢
  refine asComplete_andThen ?_ (asComplete_andThen ?_ ?_)
  · exact asComplete_reading _ fun l => asComplete_andThen (runJobs_perm _ (ho' _ _)) (runJobs_perm _ (ho' _ _))
  · exact asComplete_reading _ fun l => asComplete_andThen (runJobs_perm _ (ho' _ _)) (runJobs_perm _ (ho' _ _))
  · split
    · exact asComplete_reading _ fun r => asComplete_andThen (runJobs_perm _ (ho' _ _))
        (asComplete_andThen (runJobs_perm _ (ho' _ _)) (asComplete_refl _))
    · exact asComplete_refl _

/-- What the command `convert_datasets/sbd.py` converts, read off its options. -/
def sbdArgsGiven (items : List Item) : SbdArgs where
  root := wordGiven items "--root" "data/sbd".toList
  outDir := wordGiven items "--out-dir" "gtEval".toList
  reanno := flagGiven items "--reanno"

theorem sbd_converts {lib : DTLib} {fuel : Nat} {fs : SbdFs} {mkdir : Str → Except PyErr Unit} {order : Nat → List Str → List Str}
    {argv : List Str} {items : List Item} (hl : CommandLine convSbdParser argv items) (hpos : positionalsOf items = []) :
    ConvertCommands.sbd lib fuel fs mkdir order argv =
      (sbdIn lib fuel fs mkdir order (sbdArgsGiven items) (intGiven items "--nproc" 4)).map .converted := by
  unfold ConvertCommands.sbd
  rw [C83_convert_sbd argv items hl hpos]
  rfl

theorem wrote_perm {a : SbdArgs} {l : List Str} {mats : Str → ClsMat × InstMat} {w w' : List (Str × SbdContent)} (hp : w'.Perm w)
    (h : WroteSamples a l mats w) : WroteSamples a l mats w' :=
  ⟨fun f d hf => h.1 f d (hp.mem_iff.1 hf), fun n hn v => (h.2 n hn v).imp fun _ hd => hp.mem_iff.2 hd⟩

/-- **C85** `convert_datasets/sbd.py [options]` without `--reanno`: with a complete dataset, the command ends without an
exception, whatever the number of processes and the order in which they take the samples, and it has written exactly the
seven pictures of every listed sample, each showing what the MATLAB files of the sample say; no file is written with two different
contents. -/
theorem C85_convert_sbd (lib : DTLib) (env : MatEnv) (ex : Str → Bool) (text : Str → Option Str) (mkdir : Str → Except PyErr Unit)
    (argv : List Str) (items : List Item) (hl : CommandLine convSbdParser argv items) (hpos : positionalsOf items = [])
    (hre : flagGiven items "--reanno" = false) (hm : mkdir (saveDirOf (sbdArgsGiven items)) = .ok ()) (train val : List Str)
    (mats : Str → ClsMat × InstMat) (h : SbdDisk env ex text (sbdArgsGiven items) train val mats) (H2 : SoundDT lib true 0 2)
    (H1 : SoundDT lib true 0 1) :
    ∃ F, ∀ fuel, F ≤ fuel → ∀ order : Nat → List Str → List Str, (∀ k l, (order k l).Perm l) →
      ∃ written, ConvertCommands.sbd lib fuel (filesOf env ex text) mkdir order argv = some (.converted ⟨written, none⟩) ∧
        WroteSamples (sbdArgsGiven items) (train ++ val) mats written ∧
        ∀ f d d', (f, d) ∈ written → (f, d') ∈ written → d = d' := by
  obtain ⟨F, hF⟩ := C81_script lib env ex text (sbdArgsGiven items) train val mats h H2 H1 hre
  obtain ⟨mats', ht, -⟩ := sbdTree_of h
  refine ⟨F, fun fuel hf order ho => ?_⟩
  obtain ⟨w, h1, h2⟩ := hF fuel hf
  obtain ⟨w', g1, g2⟩ := sbd_any_order lib fuel _ mkdir ho (sbdArgsGiven items) (intGiven items "--nproc" 4) hm w h1
  refine ⟨w', ?_, wrote_perm g2 h2, fun f d d' hd hd' => C54_one_content lib _ _ train val mats' ht hre fuel _ h1 f d d'
    (g2.mem_iff.1 hd) (g2.mem_iff.1 hd')⟩
  rw [sbd_converts hl hpos, g1]
  rfl

/-- **C85** With `--reanno` (and the reader of the re-annotated files): besides, two pictures of every raw and of every thin
re-annotated sample, showing the boundaries in its files, and the list of the raw samples, in the order of `test.mat` whatever
the order in which the processes took them. -/
theorem C85_convert_sbd_reanno (lib : DTLib) (env : MatEnv) (ex : Str → Bool) (text : Str → Option Str)
    (mkdir : Str → Except PyErr Unit) (argv : List Str) (items : List Item) (hl : CommandLine convSbdParser argv items)
    (hpos : positionalsOf items = []) (hre : flagGiven items "--reanno" = true)
    (hm : mkdir (saveDirOf (sbdArgsGiven items)) = .ok ()) (train val : List Str)
    (mats : Str → ClsMat × InstMat) (h : SbdDisk env ex text (sbdArgsGiven items) train val mats) (H2 : SoundDT lib true 0 2)
    (H1 : SoundDT lib true 0 1) (hr : env.newReader = true) (rawNames thinNames : List Str)
    (rawMats thinMats : Str → ClsMat × InstMat)
    (hraw : ReannoDisk env ex (slashed [(sbdArgsGiven items).root, "gt_reanno_raw".toList]) rawNames rawMats)
    (hthin : ReannoDisk env ex (slashed [(sbdArgsGiven items).root, "gt_reanno_thin".toList]) thinNames thinMats) :
    ∃ F, ∀ fuel, F ≤ fuel → ∀ order : Nat → List Str → List Str, (∀ k l, (order k l).Perm l) →
      ∃ written w r t, ConvertCommands.sbd lib fuel (filesOf env ex text) mkdir order argv = some (.converted ⟨written, none⟩) ∧
        written.Perm
          (w ++ r ++ t ++ [(slashed [(sbdArgsGiven items).root, "reanno_val.txt".toList], .text (linesText ['\n'] rawNames))]) ∧
        WroteSamples (sbdArgsGiven items) (train ++ val) mats w ∧ WroteReanno (sbdArgsGiven items) false rawNames rawMats r ∧
        WroteReanno (sbdArgsGiven items) true thinNames thinMats t := by
  obtain ⟨F, hF⟩ := C81_reanno lib env ex text (sbdArgsGiven items) train val mats h H2 H1 hre hr rawNames thinNames rawMats
    thinMats hraw hthin
  refine ⟨F, fun fuel hf order ho => ?_⟩
  obtain ⟨w, r, t, h1, h2⟩ := hF fuel hf
  obtain ⟨w', g1, g2⟩ := sbd_any_order lib fuel _ mkdir ho (sbdArgsGiven items) (intGiven items "--nproc" 4) hm _ h1
  refine ⟨w', w, r, t, ?_, g2, h2⟩
  rw [sbd_converts hl hpos, g1]
  rfl

/-- **C85** When it stops before it writes anything: while the command line is read (status at most 2), when the output
directory cannot be made (the error of making it), without the list of the training samples (`FileNotFoundError`) and when
that list is empty (`AssertionError`). -/
theorem C85_convert_sbd_stops (lib : DTLib) (fuel : Nat) (fs : SbdFs) (mkdir : Str → Except PyErr Unit)
    (order : Nat → List Str → List Str) (argv : List Str) :
    (∀ e, parse convSbdParser argv = .error e →
      ConvertCommands.sbd lib fuel fs mkdir order argv = some (.exit e) ∧ e ≤ 2) ∧
    ∀ items, CommandLine convSbdParser argv items → positionalsOf items = [] →
      ∀ root out, root = wordGiven items "--root" "data/sbd".toList → out = wordGiven items "--out-dir" "gtEval".toList →
        DirArg root →
        (∀ e, mkdir (pjoin root out) = .error e →
          ConvertCommands.sbd lib fuel fs mkdir order argv = some (.converted ⟨[], some e⟩)) ∧
        (mkdir (pjoin root out) = .ok () → fs.text (slashed [root, "train.txt".toList]) = none →
          ConvertCommands.sbd lib fuel fs mkdir order argv = some (.converted ⟨[], some .fileNotFoundError⟩)) ∧
        (mkdir (pjoin root out) = .ok () → fs.text (slashed [root, "train.txt".toList]) = some [] →
          ConvertCommands.sbd lib fuel fs mkdir order argv = some (.converted ⟨[], some .assertionError⟩)) := by
  refine ⟨fun e he => ⟨?_, C83_exit _ _ _ he⟩, fun items hl hpos root out hroot hout hr => ?_⟩
  · unfold ConvertCommands.sbd convSbdMain
    rw [he]
    rfl
  · have e1 : saveDirOf (sbdArgsGiven items) = pjoin root out := by rw [hroot, hout]; rfl
    have e2 : pjoin (sbdArgsGiven items).root ("train".toList ++ ".txt".toList) = slashed [root, "train.txt".toList] := by
      rw [show (sbdArgsGiven items).root = root from hroot.symm]
      exact pjoin_slash hr (by unfold Relative; decide)
    have hsp : ∀ (ord : Nat → List Str → List Str) (x : Except PyErr (List Str)) (e : PyErr),
        getSamples (withDir fs (pjoin root out)) (slashed [root, "train.txt".toList]) = x →
        (x = .error e ∨ (x = .ok [] ∧ e = .assertionError)) →
        splitIn lib fuel (withDir fs (pjoin root out)) ord 0 (sbdArgsGiven items) "train".toList = some ⟨[], some e⟩ := by
      intro ord x e hx he
      unfold splitIn
      rw [e2, hx]
      rcases he with rfl | ⟨rfl, rfl⟩ <;> rfl
    rw [sbd_converts hl hpos]
    unfold sbdIn
    rw [e1]
    refine ⟨fun e he => by rw [he]; rfl, fun hm hx => ?_, fun hm hx => ?_⟩
    · have : getSamples (withDir fs (pjoin root out)) (slashed [root, "train.txt".toList]) = .error .fileNotFoundError := by
        unfold getSamples
        show (match fs.text _ with | some raw => Except.ok _ | none => _) = _
        rw [hx]
      rw [hm]
      simp only [hsp _ _ _ this (Or.inl rfl)]
      rfl
    · have : getSamples (withDir fs (pjoin root out)) (slashed [root, "train.txt".toList]) = .ok [] := by
        unfold getSamples
        show (match fs.text _ with | some raw => Except.ok _ | none => _) = _
        rw [hx]
        rfl
      rw [hm]
      simp only [hsp _ _ _ this (Or.inr ⟨rfl, rfl⟩)]
      rfl

end

/-! ## Concrete commands -/

section

/-- `--root=d`. -/
theorem exConvCityLine : CommandLine convCityParser ["--root=d".toList] [.opt (optStrD "--root" "data/cityscapes") (.str "d".toList)] :=
  .plain (.cons (a := ["--root=d".toList]) (.joined (w := "--root".toList) (s := "d".toList) (c := .str none)
    ⟨List.mem_of_getElem? (i := 0) rfl, Or.inl (by decide +kernel)⟩ rfl rfl) .nil)

/-- The concrete dataset of C53, whose output directory can be made. -/
def exConvHost : CityHost where
  pics := exMaps
  arrays _ := none
  legacy := false
  tree := exDataset
  ex _ := true
  mkdir _ := .ok ()

/-- `cityscapes.py --root=d` converts the concrete dataset with four processes, in any order; the half-size thin map of the
validation sample is among the files. -/
example : ∃ F, ∀ fuel, F ≤ fuel → ∀ order : Nat → List Action → List Action, (∀ k l, (order k l).Perm l) →
    ∃ written, ConvertCommands.city (refLib 2) fuel exConvHost order [] [] ["--root=d".toList] = some (.converted ⟨written, none⟩) ∧
      ("d/splits/val.txt".toList, .text "bonn/b_0\n".toList) ∈ written := by
  obtain ⟨F, h⟩ := C85_convert_cityscapes (refLib 2) exConvHost exMaps_nonempty _ _ exConvCityLine rfl rfl "d".toList "gtEval".toList
    rfl rfl exRoot_ok (by decide) rfl rfl (Or.inl rfl) exPoly exLabels exTree_ok exact2 exact1 (fun n _ => exGood _ _ _ _ (by omega))
    (fun n _ => exGood _ _ _ _ (by split <;> omega))
  refine ⟨F, fun fuel hf order ho => ?_⟩
  obtain ⟨w, h1, h2, -⟩ := h fuel hf order ho [] []
  refine ⟨w, h1, (h2 _).2 ?_⟩
  exact Or.inr (Or.inr ⟨"val".toList, by simp, rfl⟩)

/-- Without `gtFine`, with an empty output directory, with `bin` and in test mode. -/
example (lib : DTLib) (fuel : Nat) (order : Nat → List Action → List Action) :
    ConvertCommands.city lib fuel { exConvHost with ex := fun _ => false } order [] [] ["--root=d".toList] =
      some (.converted ⟨[], some .assertionError⟩) ∧
    ConvertCommands.city lib fuel { exConvHost with mkdir := fun _ => .error .oserror } order [] [] ["--root=d".toList] =
      some (.converted ⟨[], some .oserror⟩) ∧
    ConvertCommands.city lib fuel exConvHost order [] [] ["--out-dir=".toList] = some (.converted ⟨[], some .assertionError⟩) ∧
    ConvertCommands.city lib fuel exConvHost order [] [] ["--test_mode".toList] = some (.compared (.error .assertionError)) := by
  have hd : DirArg "d".toList := by unfold DirArg; decide
  have hd2 : DirArg "data/cityscapes".toList := by unfold DirArg; decide
  refine ⟨?_, ?_, ?_, ?_⟩
  · exact ((C85_convert_cityscapes_stops lib fuel { exConvHost with ex := fun _ => false } order [] [] _).2 _ exConvCityLine rfl rfl
      _ _ rfl rfl hd).2.2 (by decide) rfl rfl
  · exact ((C85_convert_cityscapes_stops lib fuel { exConvHost with mkdir := fun _ => .error .oserror } order [] [] _).2 _
      exConvCityLine rfl rfl _ _ rfl rfl hd).2.1 (by decide) _ rfl
  · exact ((C85_convert_cityscapes_stops lib fuel exConvHost order [] [] _).2
      [.opt ⟨["-o".toList, "--out-dir".toList], .store (.str none), .str "gtEval".toList⟩ (.str [])]
      (.plain (.cons (a := ["--out-dir=".toList]) (.joined (w := "--out-dir".toList) (s := []) (c := .str none)
        ⟨List.mem_of_getElem? (i := 1) rfl, Or.inl (by decide +kernel)⟩ rfl rfl) .nil)) rfl rfl _ _ rfl rfl hd2).1 rfl
  · exact (C85_test_mode lib fuel exConvHost order [] [] _ [.opt (optFlag "--test_mode") (.flag true)]
      (.plain (.cons (a := ["--test_mode".toList]) (.flag ⟨List.mem_of_getElem? (i := 6) rfl, Or.inl (by decide +kernel)⟩ rfl)
        .nil)) rfl rfl).2 rfl

/-- `--root=d --ext=bin --nproc=1`: nothing but the trainId pictures. -/
example (lib : DTLib) (fuel : Nat) (order : Nat → List Action → List Action) :
    ∃ written, ConvertCommands.city lib fuel exConvHost order [] [] ["--root=d".toList, "--ext=bin".toList, "--nproc=1".toList] =
        some (.converted ⟨written, some .typeError⟩) ∧
      ("d/gtEval/val/bonn/b_0_gtFine_labelTrainIds.png".toList,
        .train "d/gtFine/val/bonn/b_0_gtFine_polygons.json".toList) ∈ written := by
  obtain ⟨w, h1, h2⟩ := C85_convert_cityscapes_bin lib fuel exConvHost order [] [] _
    [.opt (optStrD "--root" "data/cityscapes") (.str "d".toList),
      .opt ⟨["--ext".toList], .store (.str (some ["png".toList, "bin".toList, "tif".toList])), .str "png".toList⟩ (.str "bin".toList),
      .opt (optInt "--nproc" 4) (.int 1)]
    (.plain (.cons (a := ["--root=d".toList]) (.joined (w := "--root".toList) (s := "d".toList) (c := .str none)
      ⟨List.mem_of_getElem? (i := 0) rfl, Or.inl (by decide +kernel)⟩ rfl rfl)
      (.cons (a := ["--ext=bin".toList]) (.joined (w := "--ext".toList) (s := "bin".toList) (c := .str (some _))
      ⟨List.mem_of_getElem? (i := 2) rfl, Or.inl (by decide +kernel)⟩ rfl ⟨rfl, by simp⟩)
      (.cons (a := ["--nproc=1".toList]) (.joined (w := "--nproc".toList) (s := "1".toList) (c := .int)
      ⟨List.mem_of_getElem? (i := 5) rfl, Or.inl (by decide +kernel)⟩ rfl ⟨1, by rfl, rfl⟩) .nil))))
    rfl rfl "d".toList "gtEval".toList rfl rfl exRoot_ok (by decide) rfl rfl rfl (by decide) exPoly exLabels
    exTree_ok.toAnnotTree "aachen/a_0".toList [] rfl (exGood _ _ _ _ (by omega))
  exact ⟨w, h1, (h2 _).2 ⟨"val".toList, by simp, "bonn/b_0".toList, by decide, rfl⟩⟩

/-- `sbd.py --root=d` and `sbd.py --root=d --reanno` on the concrete MATLAB files. -/
example : ∃ F, ∀ fuel, F ≤ fuel → ∀ order : Nat → List Str → List Str, (∀ k l, (order k l).Perm l) →
    ∃ written, ConvertCommands.sbd (refLib 2) fuel (filesOf exDiskEnv (fun _ => true) exSbdFs.text) (fun _ => .ok ()) order
        ["--root=d".toList] = some (.converted ⟨written, none⟩) ∧ ∃ d, ("d/gtEval/b_thin_isedge.png".toList, d) ∈ written := by
  obtain ⟨F, h⟩ := C85_convert_sbd (refLib 2) exDiskEnv (fun _ => true) exSbdFs.text (fun _ => .ok ()) ["--root=d".toList]
    [.opt (optStrD "--root" "data/sbd") (.str "d".toList)]
    (.plain (.cons (a := ["--root=d".toList]) (.joined (w := "--root".toList) (s := "d".toList) (c := .str none)
      ⟨List.mem_of_getElem? (i := 0) rfl, Or.inl (by decide +kernel)⟩ rfl rfl) .nil)) rfl rfl rfl _ _ _
    (exSbdDisk exDiskEnv rfl false) exact2 exact1
  refine ⟨F, fun fuel hf order ho => ?_⟩
  obtain ⟨w, h1, h2, -⟩ := h fuel hf order ho
  exact ⟨w, h1, h2.2 "b".toList (by simp) (.edge true true)⟩

example : ∃ F, ∀ fuel, F ≤ fuel → ∀ order : Nat → List Str → List Str, (∀ k l, (order k l).Perm l) →
    ∃ written, ConvertCommands.sbd (refLib 2) fuel (filesOf exDiskEnv (fun _ => true) exSbdFs.text) (fun _ => .ok ()) order
        ["--root=d".toList, "--reanno".toList] = some (.converted ⟨written, none⟩) ∧
      ("d/reanno_val.txt".toList, .text "a\nb\n".toList) ∈ written := by
  obtain ⟨F, h⟩ := C85_convert_sbd_reanno (refLib 2) exDiskEnv (fun _ => true) exSbdFs.text (fun _ => .ok ())
    ["--root=d".toList, "--reanno".toList]
    [.opt (optStrD "--root" "data/sbd") (.str "d".toList), .opt (optFlag "--reanno") (.flag true)]
    (.plain (.cons (a := ["--root=d".toList]) (.joined (w := "--root".toList) (s := "d".toList) (c := .str none)
      ⟨List.mem_of_getElem? (i := 0) rfl, Or.inl (by decide +kernel)⟩ rfl rfl)
      (.cons (a := ["--reanno".toList]) (.flag ⟨List.mem_of_getElem? (i := 3) rfl, Or.inl (by decide +kernel)⟩ rfl) .nil)))
    rfl rfl rfl _ _ _ (exSbdDisk exDiskEnv rfl true) exact2 exact1 rfl
    ["a".toList, "b".toList] ["a".toList, "b".toList] _ _ (exReannoDisk exDiskEnv rfl _) (exReannoDisk exDiskEnv rfl _)
  refine ⟨F, fun fuel hf order ho => ?_⟩
  obtain ⟨written, w, r, t, h1, h2, -⟩ := h fuel hf order ho
  refine ⟨written, h1, h2.mem_iff.2 (List.mem_append_right _ ?_)⟩
  simp only [List.mem_singleton, Prod.mk.injEq]
  exact ⟨by decide, by rw [show linesText ['\n'] ["a".toList, "b".toList] = "a\nb\n".toList by decide]⟩

/-- An unknown option; no list of training samples. -/
example (lib : DTLib) (fuel : Nat) (fs : SbdFs) (h : fs.text "d/train.txt".toList = none) (order : Nat → List Str → List Str) :
    ConvertCommands.sbd lib fuel fs (fun _ => .ok ()) order ["--nonIS".toList] = some (.exit 2) ∧
    ConvertCommands.sbd lib fuel fs (fun _ => .ok ()) order ["--root=d".toList] = some (.converted ⟨[], some .fileNotFoundError⟩) := by
  refine ⟨((C85_convert_sbd_stops lib fuel fs _ order _).1 2 (by rfl)).1, ?_⟩
  exact (((C85_convert_sbd_stops lib fuel fs (fun _ => .ok ()) order ["--root=d".toList]).2
    [.opt (optStrD "--root" "data/sbd") (.str "d".toList)]
    (.plain (.cons (a := ["--root=d".toList]) (.joined (w := "--root".toList) (s := "d".toList) (c := .str none)
      ⟨List.mem_of_getElem? (i := 0) rfl, Or.inl (by decide +kernel)⟩ rfl rfl) .nil)) rfl "d".toList "gtEval".toList rfl rfl
    (by unfold DirArg; decide)).2.1) rfl h

end

end EdgeEval.Props
