import Verif.Props.Convert
import Verif.Props.Inst
import Verif.Model.ConvertSbd

/-!
# C54: the ground truth made by the SBD converter
-/

namespace EdgeEval.Props

open Spec Text Evaluators Samples Datasets EdgeEval.Convert EdgeEval.ConvertSbd

/-! ## Specification -/

/-- The label map the edges are computed from: the segmentation with a border of five pixels of label 21. -/
def Bordered (S B : Img Nat) : Prop :=
  B.rows = S.rows ∧ B.cols = S.cols ∧
    ∀ i < S.rows, ∀ j < S.cols, B.at_ i j = if InBorder 5 S.rows S.cols i j then 21 else S.at_ i j

/-- The documented edge pixels of label `l`: the boundary pixels of the region of the label, and (if instances are
distinguished) those of every instance of the label; pixels of label 21 are ignored.  In the instance map `S` instance
number `v` has value `v + 1` and category `cats[v]`. -/
def SbdEdge (r : ℝ) (B : Img Nat) (inst : Option (Img Nat × List Nat)) (present : List Nat) (l : Nat) (p : Px) : Prop :=
  (valuePx B l).Nonempty ∧
  (IsBoundary r (pxSet B.rows B.cols) (valuePx B l) (valuePx B 21) p ∨
    ∃ S cats v, inst = some (S, cats) ∧ cats[v]? = some l ∧ l ∈ present ∧
      IsBoundary r (pxSet B.rows B.cols) (valuePx S (v + 1)) (valuePx B 21) p)

/-- The instance map fits the segmentation: same size, categories below 65 (SBD has 20; ids must fit a 16-bit picture), at
most 1000 instances of each. -/
structure InstFits (S : Img Nat) (cats present : List Nat) (B : Img Nat) : Prop where
  rows : S.rows = B.rows
  cols : S.cols = B.cols
  small : ∀ c ∈ present, c < 65
  count : ∀ c ∈ present, cats.count c ≤ 1000

/-- The edges of label `t + 1` are in class map `t`. -/
def SbdDocumented (r : ℝ) (B : Img Nat) (inst : Option (Img Nat × List Nat)) (present : List Nat) (e : MLEdges) : Prop :=
  e.n = 20 ∧ e.h = B.rows ∧ e.w = B.cols ∧
    ∀ t < 20, ∀ i < B.rows, ∀ j < B.cols, (e.at_ t i j = true ↔ SbdEdge r B inst present (t + 1) (i, j))

/-! ## Lemmas -/

theorem bordered_add (S : Img Nat) : Bordered S (addIgnorePixel S 5 21) := by
  obtain ⟨h1, h2, h3⟩ := C27_border S 5 21 (by norm_num)
  refine ⟨h1, h2, ?_⟩
  intro i hi j hj
  rw [h3 i j hi hj]
  have : ((i : Int) < 5 ∨ (S.rows : Int) - 5 ≤ i ∨ (j : Int) < 5 ∨ (S.cols : Int) - 5 ≤ j) ↔
      InBorder 5 S.rows S.cols i j := by
    unfold InBorder; omega
  simp only [this]

/-- The one-hot mask of an SBD label map. -/
theorem onehot_sbd (L : Img Nat) (hrows : 22 ≤ L.rows) :
    ∃ e, mask2onehot ⟨L.rows, L.cols, fun i j => (L.at_ i j : Int)⟩ sbdLabelIds = .ok e ∧ e.n = 22 ∧
      e.h = L.rows ∧ e.w = L.cols ∧ (∀ k < 22, ∀ i j, e.at_ k i j = true ↔ L.at_ i j = k) := by
  have hlen : sbdLabelIds.length = 22 := by decide
  obtain ⟨e, he, en, eh, ew, ea⟩ := (C24_onehot ⟨L.rows, L.cols, fun i j => (L.at_ i j : Int)⟩ sbdLabelIds).2
    (by decide) (by rw [hlen]; exact hrows)
  refine ⟨e, he, by rw [en, hlen], eh, ew, ?_⟩
  intro k hk i j
  rw [ea k i j (by rw [hlen]; exact hk)]
  have : sbdLabelIds[k]'(by rw [hlen]; exact hk) = (k : Int) := by
    simp [sbdLabelIds]
  rw [this]
  show (L.at_ i j : Int) = k ↔ _
  norm_cast

theorem classPx_sbd {L : Img Nat} {e : MLEdges} (eh : e.h = L.rows) (ew : e.w = L.cols)
    (ea : ∀ k < 22, ∀ i j, e.at_ k i j = true ↔ L.at_ i j = k) {k : Nat} (hk : k < 22) :
    classPx e k = valuePx L k := by
  unfold classPx valuePx
  ext p
  simp only [Set.mem_ofPred_eq, eh, ew, ea k hk]

theorem ignoredPx_sbd {L : Img Nat} {e : MLEdges} (eh : e.h = L.rows) (ew : e.w = L.cols)
    (ea : ∀ k < 22, ∀ i j, e.at_ k i j = true ↔ L.at_ i j = k) : ignoredPx e [21] = valuePx L 21 := by
  unfold ignoredPx valuePx
  ext p
  simp only [Set.mem_ofPred_eq, eh, ew]
  constructor
  · rintro ⟨h, k, hk, h2⟩
    refine ⟨h, ?_⟩
    simp only [List.mem_cons, List.not_mem_nil, or_false] at hk
    have : k = 21 := by exact_mod_cast hk
    subst this
    exact (ea 21 (by omega) _ _).1 h2
  · rintro ⟨h, h2⟩
    exact ⟨h, 21, by simp, (ea 21 (by omega) _ _).2 h2⟩

theorem sbd_ignore {e : MLEdges} (en : e.n = 22) : ∀ k ∈ ([((21 : Nat) : Int)] : List Int), 0 ≤ k ∧ k < (e.n : Int) := by
  intro k hk; rw [en]
  simp only [List.mem_cons, List.not_mem_nil, or_false] at hk
  subst hk
  decide

theorem sbd_table : ∀ t < 20, (((t + 1 : Nat) : Int), (t : Int)) ∈ sbdLabel2TrainId := by decide

/-- The class maps by trainId of a finished loop. -/
theorem sbd_channels {ids : MLEdges} (hn : ids.n = 22) : ∃ e, edgeToTrainId ids sbdLabel2TrainId = .ok e ∧
    e.n = 20 ∧ e.h = ids.h ∧ e.w = ids.w ∧ ∀ t < 20, ∀ i j, e.at_ t i j = ids.at_ (t + 1) i j := by
  obtain ⟨-, h2, h3⟩ := C24_tables.2
  have hlen : sbdLabel2TrainId.length = 20 := by decide
  obtain ⟨e, a1, a2, a3, a4, a5⟩ := C24_edge_trainId ids sbdLabel2TrainId (by
    intro kv hkv
    rw [hn]
    exact h3 kv hkv) h2
  refine ⟨e, a1, by rw [a2, hlen], a3, a4, ?_⟩
  intro t ht i j
  simpa using a5 _ _ (sbd_table t ht) i j

/-- The number of earlier instances of the same category. -/
theorem rank_lt {cats : List Nat} {u d : Nat} (hu : cats[u]? = some d) (hd : cats.count d ≤ 1000) :
    (cats.take u).count d < 1000 := by
  have hlt : u < cats.length := by
    by_contra h
    rw [List.getElem?_eq_none (by omega)] at hu; cases hu
  have h1 : (cats.take (u + 1)).count d ≤ cats.count d := (List.take_sublist _ _).count_le _
  rw [List.take_add_one, hu] at h1
  simp only [Option.toList_some, List.count_append, List.count_singleton, beq_self_eq_true, if_true] at h1
  omega

/-- A non-zero pixel of the new instance map belongs to an instance of a present category. -/
theorem conv_inv {S : Img Nat} {cats present : List Nat} {i j : Nat} (h : (convertInst S cats present).at_ i j ≠ 0) :
    ∃ v c, S.at_ i j = v + 1 ∧ cats[v]? = some c ∧ c ∈ present ∧
      (convertInst S cats present).at_ i j = instId c ((cats.take v).count c) := by
  obtain ⟨-, -, h1, h2, h3⟩ := C26_pixels S cats present i j
  by_cases hz : S.at_ i j = 0 ∨ cats.length < S.at_ i j
  · exact absurd (h3 hz) h
  · push Not at hz
    obtain ⟨v, hv⟩ : ∃ v, S.at_ i j = v + 1 := ⟨S.at_ i j - 1, by omega⟩
    have hlt : v < cats.length := by omega
    have hc : cats[v]? = some cats[v] := List.getElem?_eq_getElem hlt
    by_cases hm : cats[v] ∈ present
    · exact ⟨v, cats[v], hv, hc, hm, h1 v _ hv hc hm⟩
    · exact absurd (h2 v _ hv hc hm) h

/-- The region of one instance in the new map is its region in the file. -/
theorem conv_region {S : Img Nat} {cats present : List Nat} {v c : Nat} (hc : cats[v]? = some c) (hm : c ∈ present)
    (hpos : 0 < c) (hcount : ∀ c ∈ present, cats.count c ≤ 1000) :
    valuePx (convertInst S cats present) (instId c ((cats.take v).count c)) = valuePx S (v + 1) := by
  have hne : instId c ((cats.take v).count c) ≠ 0 := by
    rw [instId_eq _ _ (rank_lt hc (hcount c hm))]; omega
  unfold valuePx
  ext ⟨i, j⟩
  simp only [Set.mem_ofPred_eq]
  have hpx : pxSet (convertInst S cats present).rows (convertInst S cats present).cols = pxSet S.rows S.cols := rfl
  rw [hpx]
  constructor
  · rintro ⟨hp, h⟩
    refine ⟨hp, ?_⟩
    obtain ⟨v', c', hv', hc', hm', he⟩ := conv_inv (i := i) (j := j) (by rw [h]; exact hne)
    rw [h, instId_eq _ _ (rank_lt hc (hcount c hm)), instId_eq _ _ (rank_lt hc' (hcount c' hm'))] at he
    have r1 := rank_lt hc (hcount c hm)
    have r2 := rank_lt hc' (hcount c' hm')
    obtain rfl : c = c' := by omega
    have hr : (cats.take v).count c = (cats.take v').count c := by omega
    have : v = v' := by
      by_contra hvv
      have key : ∀ a b : Nat, a < b → cats[a]? = some c → (cats.take a).count c < (cats.take b).count c := by
        intro a b hab ha
        have h1 : (cats.take (a + 1)).count c ≤ (cats.take b).count c :=
          (List.take_sublist_take_left (by omega)).count_le _
        rw [List.take_add_one, ha] at h1
        simp only [Option.toList_some, List.count_append, List.count_singleton, beq_self_eq_true, if_true] at h1
        omega
      rcases Nat.lt_or_gt_of_ne hvv with hlt | hlt
      · exact absurd hr (Nat.ne_of_lt (key _ _ hlt hc))
      · exact absurd hr.symm (Nat.ne_of_lt (key _ _ hlt hc'))
    subst this
    exact hv'
  · rintro ⟨hp, h⟩
    exact ⟨hp, (C26_pixels S cats present i j).2.2.1 v c h hc hm⟩

theorem conv_small {S : Img Nat} {cats present : List Nat} (hsmall : ∀ c ∈ present, c < 65)
    (hcount : ∀ c ∈ present, cats.count c ≤ 1000) (i j : Nat) : (convertInst S cats present).at_ i j < 65000 := by
  by_cases h : (convertInst S cats present).at_ i j = 0
  · omega
  · obtain ⟨v, c, -, hc, hm, he⟩ := conv_inv h
    have := rank_lt hc (hcount c hm)
    have := hsmall c hm
    rw [he, instId_eq _ _ (by omega)]
    omega

theorem boundary_nonempty {r : ℝ} {A R G : Set Px} {p : Px} (hb : IsBoundary r A R G p) : R.Nonempty := by
  rcases hb with ⟨hm, -⟩ | ⟨-, -, q, hq, -⟩ | ⟨-, -, q, -, -, -, q', hq', -⟩
  exacts [⟨_, hm⟩, ⟨_, hq⟩, ⟨_, hq'⟩]

/-- convert_sbd.py:262-285 without the file accesses. -/
noncomputable def sbdRun (lib : DTLib) (fuel : Nat) (radius : Int) (thin : Bool) (m : MLEdges) (present : List Nat) :
    Option (Img Nat × List Nat) → Run MLEdges
  | some (S, cats) => loopInstMask2Edge lib { radius := radius } fuel thin m (convertInst S cats present)
      sbdInstLabelIds [((21 : Nat) : Int)]
  | none => loopMask2Edge lib { radius := radius } fuel thin m [((21 : Nat) : Int)]

/-- Without thinning: the class maps are the documented ones. -/
theorem sbd_edges (lib : DTLib) (fuel r : Nat) (H : SoundDT lib true 0 r) (B : Img Nat)
    (I : Option (Img Nat × List Nat)) (present : List Nat) (hrows : 22 ≤ B.rows)
    (hI : ∀ x, I = some x → InstFits x.1 x.2 present B) :
    ∃ m ids e, mask2onehot ⟨B.rows, B.cols, fun i j => (B.at_ i j : Int)⟩ sbdLabelIds = .ok m ∧
      m.n = 22 ∧ m.h = B.rows ∧ m.w = B.cols ∧
      sbdRun lib fuel r false m present I = .ok (some ids) ∧ ids.n = 22 ∧ ids.h = B.rows ∧ ids.w = B.cols ∧
      edgeToTrainId ids sbdLabel2TrainId = .ok e ∧ SbdDocumented r B I present e := by
  obtain ⟨m, hm, en, eh, ew, ea⟩ := onehot_sbd B hrows
  have hig := sbd_ignore en
  have hgn : ignoredPx m [((21 : Nat) : Int)] = valuePx B 21 := ignoredPx_sbd eh ew ea
  have hall : allPx m = pxSet B.rows B.cols := by unfold allPx; rw [eh, ew]
  have hrad : (((r : Int) : ℝ)) = (r : ℝ) := by push_cast; rfl
  suffices hs : ∃ ids, sbdRun lib fuel r false m present I = .ok (some ids) ∧ ids.n = 22 ∧ ids.h = B.rows ∧
      ids.w = B.cols ∧
      ∀ l : Nat, 1 ≤ l → l < 21 → ∀ i < B.rows, ∀ j < B.cols, (ids.at_ l i j = true ↔ SbdEdge r B I present l (i, j)) by
    obtain ⟨ids, s1, s2, s3, s4, s5⟩ := hs
    obtain ⟨e, t1, t2, t3, t4, t5⟩ := sbd_channels s2
    refine ⟨m, ids, e, hm, en, eh, ew, s1, s2, s3, s4, t1, t2, by rw [t3, s3], by rw [t4, s4], ?_⟩
    intro t ht i hi j hj
    rw [t5 t ht, s5 (t + 1) (by omega) (by omega) i hi j hj]
  cases hI0 : I with
  | none =>
    obtain ⟨out, o1, o2, o3, o4, o5⟩ := C28_semantic_edges lib { radius := r } rfl H
      (Int.natCast_nonneg _) fuel m [((21 : Nat) : Int)] hig (by decide)
    refine ⟨out, o1, by rw [o2, en], by rw [o3, eh], by rw [o4, ew], ?_⟩
    intro l hl1 hl21 i hi j hj
    have hcl : classPx m l = valuePx B l := classPx_sbd eh ew ea (by omega)
    have hlig : ((l : Nat) : Int) ∉ ([((21 : Nat) : Int)] : List Int) := by
      simp only [List.mem_cons, List.not_mem_nil, or_false]; omega
    rw [o5 l i j (by rw [en]; omega) (by rw [eh]; exact hi) (by rw [ew]; exact hj), hcl, hgn, hall]
    simp only [hrad]
    unfold SbdEdge
    constructor
    · rintro ⟨-, hb⟩
      exact ⟨boundary_nonempty hb, Or.inl hb⟩
    · rintro ⟨-, hb | ⟨S, cats, v, hcontra, -⟩⟩
      · exact ⟨hlig, hb⟩
      · cases hcontra
  | some x =>
    obtain ⟨S, cats⟩ := x
    obtain ⟨ir, ic, hsmall, hcount⟩ := hI _ hI0
    simp only at ir ic hcount
    obtain ⟨out, o1, o2, o3, o4, o5⟩ := C30_instance_edges lib { radius := r } rfl H
      (Int.natCast_nonneg _) fuel m (convertInst S cats present) ⟨by rw [eh]; exact ir, by rw [ew]; exact ic⟩
      sbdInstLabelIds 1 (by decide) (by decide) [((21 : Nat) : Int)] hig (by decide)
      (fun i j _ _ => (conv_small hsmall hcount i j).trans (by norm_num))
    refine ⟨out, o1, by rw [o2, en], by rw [o3, eh], by rw [o4, ew], ?_⟩
    intro l hl1 hl21 i hi j hj
    have hcl : classPx m l = valuePx B l := classPx_sbd eh ew ea (by omega)
    have hlig : ((l : Nat) : Int) ∉ ([((21 : Nat) : Int)] : List Int) := by
      simp only [List.mem_cons, List.not_mem_nil, or_false]; omega
    have hinstpx : ∀ v, instPx m (convertInst S cats present) v = valuePx (convertInst S cats present) v := by
      intro v; unfold instPx valuePx; rw [eh, ew]
      ext p
      simp only [Set.mem_ofPred_eq]
      rw [show (convertInst S cats present).rows = B.rows from ir, show (convertInst S cats present).cols = B.cols from ic]
    rw [o5 l i j (by rw [en]; omega) (by rw [eh]; exact hi) (by rw [ew]; exact hj), hcl, hgn, hall]
    simp only [hrad, hinstpx]
    unfold SbdEdge
    constructor
    · rintro ⟨-, hn, hb | ⟨id, hv1, hv2, hv3, hv4⟩⟩
      · exact ⟨hn, Or.inl hb⟩
      · obtain ⟨⟨a, b⟩, hab, hid⟩ := hv1
        simp only at hid
        obtain ⟨v, c, h1, h2, h3, h4⟩ := conv_inv (S := S) (cats := cats) (present := present) (i := a) (j := b)
          (by rw [hid]; rintro rfl; omega)
        have hr := rank_lt h2 (hcount c h3)
        rw [hid] at h4
        have h4' := h4
        rw [instId_eq _ _ hr] at h4'
        obtain rfl : c = l := by omega
        rw [h4, conv_region h2 h3 (by omega) hcount] at hv4
        exact ⟨hn, Or.inr ⟨S, cats, v, rfl, h2, h3, hv4⟩⟩
    · rintro ⟨hn, hb | ⟨S', cats', v, him, h2, h3, hv4⟩⟩
      · exact ⟨hlig, hn, Or.inl hb⟩
      · cases him
        rw [← conv_region h2 h3 (by omega) hcount] at hv4
        refine ⟨hlig, hn, Or.inr ⟨_, boundary_nonempty hv4, ?_, hl1, hv4⟩⟩
        have hr := rank_lt h2 (hcount l h3)
        rw [instId_eq _ _ hr]
        omega

/-- With thinning: the class maps are thinned versions of the documented ones. -/
theorem sbd_thin (lib : DTLib) (fuel r : Nat) (H : SoundDT lib true 0 r) (B : Img Nat)
    (I : Option (Img Nat × List Nat)) (present : List Nat) (hrows : 22 ≤ B.rows) (hf : B.rows * B.cols + 1 ≤ fuel)
    (hI : ∀ x, I = some x → InstFits x.1 x.2 present B) :
    ∃ m thin e te, mask2onehot ⟨B.rows, B.cols, fun i j => (B.at_ i j : Int)⟩ sbdLabelIds = .ok m ∧
      sbdRun lib fuel r true m present I = .ok (some thin) ∧
      edgeToTrainId thin sbdLabel2TrainId = .ok te ∧ te.n = 20 ∧ te.h = B.rows ∧ te.w = B.cols ∧
      SbdDocumented r B I present e ∧
      ∀ t < 20, edgeSet (toImg B.rows B.cols (te.at_ t)) ⊆ edgeSet (toImg B.rows B.cols (e.at_ t)) ∧
        SameTopology (edgeSet (toImg B.rows B.cols (e.at_ t))) (edgeSet (toImg B.rows B.cols (te.at_ t))) := by
  obtain ⟨m, ids, e, hm, mn, mh, mw, hrun, idn, idh, idw, he, hdoc⟩ := sbd_edges lib fuel r H B I present hrows hI
  obtain ⟨ign, hign, -⟩ := ignoreMask_ok m [((21 : Nat) : Int)] (sbd_ignore mn)
  have hf' : m.h * m.w + 1 ≤ fuel := by rw [mh, mw]; exact hf
  have hT : ∃ out thin, sbdRun lib fuel r false m present I = .ok (some out) ∧
      sbdRun lib fuel r true m present I = .ok (some thin) ∧
      thin.n = m.n ∧ thin.h = m.h ∧ thin.w = m.w ∧
      ∀ k < m.n,
        edgeSet (toImg m.h m.w (thin.at_ k)) ⊆ edgeSet (toImg m.h m.w (out.at_ k)) ∧
        SameTopology (edgeSet (toImg m.h m.w (out.at_ k))) (edgeSet (toImg m.h m.w (thin.at_ k))) := by
    cases hI0 : I with
    | none => exact C28_thinned lib _ fuel m [((21 : Nat) : Int)] ign hign hf'
    | some x =>
      obtain ⟨S, cats⟩ := x
      obtain ⟨-, -, hsmall, hcount⟩ := hI _ hI0
      exact C30_thinned lib _ fuel m (convertInst S cats present) sbdInstLabelIds [((21 : Nat) : Int)] (by decide)
        (fun i j _ _ => (conv_small hsmall hcount i j).trans (by norm_num)) ign hign hf'
  obtain ⟨out, thin, t1, t2, t3, t4, t5, t6⟩ := hT
  rw [hrun] at t1
  cases t1
  obtain ⟨te, u1, u2, u3, u4, u5⟩ := sbd_channels (ids := thin) (by rw [t3, mn])
  obtain ⟨e', v1, v2, v3, v4, v5⟩ := sbd_channels idn
  rw [he] at v1
  cases v1
  refine ⟨m, thin, e, te, hm, t2, u1, u2, by rw [u3, t4, mh], by rw [u4, t5, mw], hdoc, ?_⟩
  intro t ht
  have e1 : te.at_ t = thin.at_ (t + 1) := by funext i j; exact u5 t ht i j
  have e2 : e.at_ t = ids.at_ (t + 1) := by funext i j; exact v5 t ht i j
  have := t6 (t + 1) (by rw [mn]; omega)
  rw [mh, mw] at this
  rw [e1, e2]
  exact this

/-! ## One sample -/

/-- The picture shows the documented edges: bit `t` of a pixel is set exactly when the pixel is an edge pixel of label
`t + 1`; there are twenty labels. -/
def RawEdges (r : ℝ) (B : Img Nat) (inst : Option (Img Nat × List Nat)) (present : List Nat) (im : Rgb) : Prop :=
  im.h = B.rows ∧ im.w = B.cols ∧ ∀ i < B.rows, ∀ j < B.cols, ∀ t < 24,
    (colourBit im i j t = true ↔ t < 20 ∧ SbdEdge r B inst present (t + 1) (i, j))

/-- The picture shows a thinned version of the documented edges of radius 1: for every label a subset with the same
topology. -/
def ThinEdges (B : Img Nat) (inst : Option (Img Nat × List Nat)) (present : List Nat) (im : Rgb) : Prop :=
  im.h = B.rows ∧ im.w = B.cols ∧
  (∀ i < B.rows, ∀ j < B.cols, ∀ t, 20 ≤ t → t < 24 → colourBit im i j t = false) ∧
  ∀ t < 20, ∃ full : Nat → Nat → Bool,
    (∀ i < B.rows, ∀ j < B.cols, (full i j = true ↔ SbdEdge 1 B inst present (t + 1) (i, j))) ∧
    edgeSet (toImg B.rows B.cols fun i j => colourBit im i j t) ⊆ edgeSet (toImg B.rows B.cols full) ∧
    SameTopology (edgeSet (toImg B.rows B.cols full)) (edgeSet (toImg B.rows B.cols fun i j => colourBit im i j t))

/-- The pictures of the trainIds (`l - 1` for the labels 1 to 20, 255 for all other) and of the instances (category
times 1000, plus the number of earlier instances of the category; 0 elsewhere). -/
def TrainMap (B T : Img Nat) : Prop :=
  T.rows = B.rows ∧ T.cols = B.cols ∧ ∀ i j,
    T.at_ i j = if 1 ≤ B.at_ i j ∧ B.at_ i j ≤ 20 then B.at_ i j - 1 else 255

/-- See `TrainMap`. -/
def InstMap (S : Img Nat) (cats present : List Nat) (N : Img Nat) : Prop :=
  N.rows = S.rows ∧ N.cols = S.cols ∧ ∀ i < S.rows, ∀ j < S.cols,
    (∀ v c, S.at_ i j = v + 1 → cats[v]? = some c → c ∈ present → N.at_ i j = c * 1000 + (cats.take v).count c) ∧
    ((¬ ∃ v c, S.at_ i j = v + 1 ∧ cats[v]? = some c ∧ c ∈ present) → N.at_ i j = 0)

/-- The two MATLAB files of a sample are in place, the arguments are usable paths. -/
structure MatFiles (fs : SbdFs) (o : RoutineOpts) (name : Str) (c : ClsMat) (x : InstMat) : Prop where
  data : DirArg o.dataDir
  save : DirArg o.saveDir
  relName : Relative name
  relSuffix : ∀ s ∈ [o.edgeSuffix, o.isedgeSuffix, o.labelSuffix, o.trainSuffix, o.instSuffix], Relative s
  exSave : fs.ex o.saveDir = true
  exClsDir : fs.ex (slashed [o.dataDir, "cls_orig".toList]) = true
  exInstDir : fs.ex (slashed [o.dataDir, "inst_orig".toList]) = true
  exCls : fs.ex (slashed [o.dataDir, "cls_orig".toList, name ++ ".mat".toList]) = true
  exInst : fs.ex (slashed [o.dataDir, "inst_orig".toList, name ++ ".mat".toList]) = true
  cls : fs.cls false (slashed [o.dataDir, "cls_orig".toList, name ++ ".mat".toList]) = .ok c
  inst : fs.inst false (slashed [o.dataDir, "inst_orig".toList, name ++ ".mat".toList]) = .ok x

/-- The two edge files. -/
def edgeFiles (o : RoutineOpts) (name : Str) (e0 e1 : Rgb) : List (Str × SbdContent) :=
  [(slashed [o.saveDir, name ++ o.edgeSuffix], .edges e0), (slashed [o.saveDir, name ++ o.isedgeSuffix], .edges e1)]

/-- The three maps. -/
def mapFiles (o : RoutineOpts) (name : Str) (B T N : Img Nat) : List (Str × SbdContent) :=
  [(slashed [o.saveDir, name ++ o.labelSuffix], .map B), (slashed [o.saveDir, name ++ o.trainSuffix], .map T),
   (slashed [o.saveDir, name ++ o.instSuffix], .map N)]

theorem rgb_bits {e : MLEdges} (hn : e.n ≤ 24) : ∃ im, rgbEncode e = .ok im ∧ im.h = e.h ∧ im.w = e.w ∧
    ∀ t < 24, ∀ i j, colourBit im i j t = (decide (t < e.n) && e.at_ t i j) := by
  obtain ⟨enc, h1, h2, h3, h4⟩ := encode_ok (ext := ".png".toList) (Or.inl rfl) hn
  cases enc with
  | png im =>
    refine ⟨im, ?_, congrArg Prod.fst h3, congrArg Prod.snd h3, h4⟩
    unfold encode at h1
    rw [if_pos rfl] at h1
    cases h : rgbEncode e with
    | ok a => rw [h] at h1; cases h1; rfl
    | error a => rw [h] at h1; cases h1
  | tif im => exact absurd (show ".png".toList = ".tif".toList from h2) (by decide)

theorem train_map (B : Img Nat) : TrainMap B (segToTrain B sbdLabel2TrainId) := by
  refine ⟨rfl, rfl, ?_⟩
  intro i j
  show sbdLabel2TrainId.foldl (fun v kv => if (B.at_ i j : Int) = kv.1 then kv.2.toNat else v) 255 = _
  generalize B.at_ i j = b
  by_cases h : 1 ≤ b ∧ b ≤ 20
  · rw [if_pos h]
    obtain ⟨h1, h2⟩ := h
    interval_cases b <;> rfl
  · rw [if_neg h]
    have key : ∀ d : List (Int × Int), (∀ kv ∈ d, (b : Int) ≠ kv.1) → ∀ v0 : Nat,
        d.foldl (fun v kv => if (b : Int) = kv.1 then kv.2.toNat else v) v0 = v0 := by
      intro d
      induction d with
      | nil => intro _ _; rfl
      | cons kv d ih =>
        intro hd v0
        rw [List.foldl_cons, if_neg (hd kv (by simp)), ih (fun x hx => hd x (by simp [hx]))]
    apply key
    intro kv hkv he
    simp only [sbdLabel2TrainId, List.mem_map, List.mem_range] at hkv
    obtain ⟨k, hk, rfl⟩ := hkv
    simp only at he
    omega

theorem inst_map {S : Img Nat} {cats present : List Nat} (hsmall : ∀ c ∈ present, c < 65)
    (hcount : ∀ c ∈ present, cats.count c ≤ 1000) : InstMap S cats present (png16 (convertInst S cats present)) := by
  refine ⟨rfl, rfl, ?_⟩
  intro i _ j _
  have hmin : (png16 (convertInst S cats present)).at_ i j = (convertInst S cats present).at_ i j := by
    have := conv_small (S := S) hsmall hcount i j
    show min _ _ = _
    omega
  rw [hmin]
  constructor
  · intro v c h1 h2 h3
    rw [(C26_pixels S cats present i j).2.2.1 v c h1 h2 h3, instId_eq _ _ (rank_lt h2 (hcount c h3))]
  · intro h
    by_contra hne
    obtain ⟨v, c, h1, h2, h3, -⟩ := conv_inv hne
    exact h ⟨v, c, h1, h2, h3⟩

theorem checkPath_ok {fs : SbdFs} {p : Str} (h : fs.ex p = true) : checkPath fs p = .ok p := by
  unfold checkPath
  rw [h]; rfl

theorem checkPath_error {fs : SbdFs} {p : Str} (h : fs.ex p = false) : checkPath fs p = .error .assertionError := by
  unfold checkPath
  rw [h]; rfl

theorem pjoin_slash3 {a b c : Str} (ha : DirArg a) (hb : DirArg b) (hb' : Relative b) (hc : Relative c) :
    pjoin (pjoin a b) c = slashed [a, b, c] := by
  rw [pjoin_slash ha hb', pjoin_slash (dirArg_slash hb) hc]
  simp [slashed]

theorem clsOrig_dir : DirArg "cls_orig".toList ∧ Relative "cls_orig".toList := by unfold DirArg Relative; decide

theorem instOrig_dir : DirArg "inst_orig".toList ∧ Relative "inst_orig".toList := by unfold DirArg Relative; decide

theorem dotMat : Relative ".mat".toList := by unfold Relative; decide

/-- The steps of a routine that succeeds. -/
theorem routine_run {lib : DTLib} {fuel : Nat} {fs : SbdFs} {o : RoutineOpts} {name : Str} {c : ClsMat} {x : InstMat}
    (h : MatFiles fs o name c x) {e0 e1 : MLEdges} {B N : Img Nat} {im0 im1 : Rgb}
    (h1 : mat2np lib fuel c (some (.ok x)) (if o.thin then 1 else o.radius) o.thin 21 = .ok (some (e1, B, some N)))
    (h0 : mat2np lib fuel c none (if o.thin then 1 else o.radius) o.thin 21 = .ok (some (e0, B, none)))
    (i0 : rgbEncode e0 = .ok im0) (i1 : rgbEncode e1 = .ok im1) :
    routine lib fuel fs o name = .ok (some (edgeFiles o name im0 im1 ++
      (if o.saveSegs then mapFiles o name B (segToTrain B sbdLabel2TrainId) (png16 N) else []))) := by
  have hn := relative_append h.relName dotMat
  have a0 := pjoin_slash h.data clsOrig_dir.2
  have a1 := pjoin_slash h.data instOrig_dir.2
  have a2 := pjoin_slash3 h.data clsOrig_dir.1 clsOrig_dir.2 hn
  have a3 := pjoin_slash3 h.data instOrig_dir.1 instOrig_dir.2 hn
  have b : ∀ s ∈ [o.edgeSuffix, o.isedgeSuffix, o.labelSuffix, o.trainSuffix, o.instSuffix],
      pjoin o.saveDir (name ++ s) = slashed [o.saveDir, name ++ s] := fun s hs =>
    pjoin_slash h.save (relative_append h.relName (h.relSuffix s hs))
  unfold routine
  simp only [checkPath_ok h.exSave, now_bind]
  rw [checkPath_ok (by rw [a0]; exact h.exClsDir), now_bind, checkPath_ok (by rw [a1]; exact h.exInstDir), now_bind,
    checkPath_ok (by rw [a2]; exact h.exCls), now_bind, checkPath_ok (by rw [a3]; exact h.exInst), now_bind,
    a2, a3, h.cls, h.inst]
  rw [now_bind, h1]
  show (mat2np lib fuel c none _ _ _).bind _ = _
  rw [h0]
  show (now (rgbEncode e0)).bind _ = _
  rw [i0, now_bind, i1, now_bind]
  rw [b _ (by simp), b _ (by simp), b _ (by simp), b _ (by simp), b _ (by simp)]
  rfl

/-- The steps of `convert_mat2np` that succeeds. -/
theorem mat2np_run {lib : DTLib} {fuel : Nat} {c : ClsMat} {inst : Option InstMat} {radius : Int} {thin : Bool}
    {m ids e : MLEdges}
    (hm : mask2onehot ⟨(addIgnorePixel c.seg 5 21).rows, (addIgnorePixel c.seg 5 21).cols,
      fun i j => ((addIgnorePixel c.seg 5 21).at_ i j : Int)⟩ sbdLabelIds = .ok m)
    (hids : sbdRun lib fuel radius thin m c.present (inst.map fun x => (x.seg, x.cats)) = .ok (some ids))
    (he : edgeToTrainId ids sbdLabel2TrainId = .ok e) :
    mat2np lib fuel c (inst.map .ok) radius thin 21 = .ok (some (e, addIgnorePixel c.seg 5 21,
      inst.map fun x => convertInst x.seg x.cats c.present)) := by
  unfold mat2np
  simp only [hm, now_bind]
  cases inst with
  | none =>
    simp only [Option.map_none, sbdRun] at hids
    simp only [hids]
    show (now (edgeToTrainId ids _)).bind _ = _
    rw [he]; rfl
  | some x =>
    simp only [Option.map_some, sbdRun] at hids
    simp only [Option.map_some, now_bind, hids]
    show (now (edgeToTrainId ids _)).bind _ = _
    rw [he]; rfl

/-- C54: the raw ground truth of one SBD sample. With an exact distance transform, files in place, at least 22 rows and
fitting instances, `routine` writes the instance-insensitive picture, then the instance-sensitive one: bit `t` of a pixel
is set exactly when the pixel is a boundary pixel of label `t + 1` (or of one of its instances) in the segmentation with
a 5-pixel border of the ignored label 21. With `save_segs` it also writes the bordered label map, the trainIds and the
instance ids; nothing else. -/
theorem C54_raw (lib : DTLib) (fuel r : Nat) (H : SoundDT lib true 0 r) (fs : SbdFs) (o : RoutineOpts)
    (name : Str) (c : ClsMat) (x : InstMat) (h : MatFiles fs o name c x) (hthin : o.thin = false) (hr : o.radius = r)
    (hrows : 22 ≤ c.seg.rows) (hfit : InstFits x.seg x.cats c.present c.seg) :
    ∃ e0 e1 B T N, routine lib fuel fs o name = .ok (some (edgeFiles o name e0 e1 ++
        (if o.saveSegs then mapFiles o name B T N else []))) ∧
      Bordered c.seg B ∧ RawEdges r B none c.present e0 ∧ RawEdges r B (some (x.seg, x.cats)) c.present e1 ∧
      TrainMap B T ∧ InstMap x.seg x.cats c.present N := by
  have hB := bordered_add c.seg
  have hrows' : 22 ≤ (addIgnorePixel c.seg 5 21).rows := by rw [hB.1]; exact hrows
  have hfit' : InstFits x.seg x.cats c.present (addIgnorePixel c.seg 5 21) :=
    ⟨hfit.rows, hfit.cols, hfit.small, hfit.count⟩
  have one : ∀ inst : Option InstMat, (inst = none ∨ inst = some x) → ∃ e im,
      mat2np lib fuel c (inst.map .ok) r false 21 = .ok (some (e, addIgnorePixel c.seg 5 21,
        inst.map fun x => convertInst x.seg x.cats c.present)) ∧ rgbEncode e = .ok im ∧
      RawEdges r (addIgnorePixel c.seg 5 21) (inst.map fun x => (x.seg, x.cats)) c.present im := by
    intro inst hi
    obtain ⟨m, ids, e, c1, c2, c3, c4, c5, c6, c7, c8, c9, d1, d2, d3, d4⟩ := sbd_edges lib fuel r H
      (addIgnorePixel c.seg 5 21) (inst.map fun x => (x.seg, x.cats)) c.present hrows' (by
        intro y hy
        rcases hi with rfl | rfl
        · cases hy
        · cases hy; exact hfit')
    obtain ⟨im, f1, f2, f3, f4⟩ := rgb_bits (e := e) (by omega)
    refine ⟨e, im, mat2np_run c1 c5 c9, f1, by rw [f2, d2], by rw [f3, d3], ?_⟩
    intro i hi j hj t ht
    rw [f4 t ht, d1]
    by_cases ht' : t < 20
    · simp only [ht', decide_true, Bool.true_and, true_and]
      exact d4 t ht' i hi j hj
    · simp [ht']
  obtain ⟨e1, im1, p1, p2, p3⟩ := one (some x) (Or.inr rfl)
  obtain ⟨e0, im0, q1, q2, q3⟩ := one none (Or.inl rfl)
  refine ⟨im0, im1, _, _, _, routine_run h (e0 := e0) (e1 := e1) ?_ ?_ q2 p2, hB, q3, p3, train_map _,
    inst_map hfit.small hfit.count⟩
  · rw [hthin, hr]; exact p1
  · rw [hthin, hr]; exact q1

/-- C54: the thin ground truth: whatever `radius` says, radius 1 is used; both pictures are thinned versions of the
documented edges. The call ends. -/
theorem C54_thin (lib : DTLib) (H : SoundDT lib true 0 1) (fs : SbdFs) (o : RoutineOpts)
    (name : Str) (c : ClsMat) (x : InstMat) (h : MatFiles fs o name c x) (hthin : o.thin = true)
    (hrows : 22 ≤ c.seg.rows) (hfit : InstFits x.seg x.cats c.present c.seg) :
    ∀ fuel, c.seg.rows * c.seg.cols + 1 ≤ fuel →
    ∃ e0 e1 B T N, routine lib fuel fs o name = .ok (some (edgeFiles o name e0 e1 ++
        (if o.saveSegs then mapFiles o name B T N else []))) ∧
      Bordered c.seg B ∧ ThinEdges B none c.present e0 ∧ ThinEdges B (some (x.seg, x.cats)) c.present e1 ∧
      TrainMap B T ∧ InstMap x.seg x.cats c.present N := by
  intro fuel hfuel
  have hB := bordered_add c.seg
  have hrows' : 22 ≤ (addIgnorePixel c.seg 5 21).rows := by rw [hB.1]; exact hrows
  have hfit' : InstFits x.seg x.cats c.present (addIgnorePixel c.seg 5 21) :=
    ⟨hfit.rows, hfit.cols, hfit.small, hfit.count⟩
  have one : ∀ inst : Option InstMat, (inst = none ∨ inst = some x) → ∃ e im,
      mat2np lib fuel c (inst.map .ok) 1 true 21 = .ok (some (e, addIgnorePixel c.seg 5 21,
        inst.map fun x => convertInst x.seg x.cats c.present)) ∧ rgbEncode e = .ok im ∧
      ThinEdges (addIgnorePixel c.seg 5 21) (inst.map fun x => (x.seg, x.cats)) c.present im := by
    intro inst hi
    obtain ⟨m, ids, e, te, c1, c2, c3, c4, c5, c6, ⟨d1, d2, d3, d4⟩, c8⟩ := sbd_thin lib fuel 1 (by exact_mod_cast H)
      (addIgnorePixel c.seg 5 21) (inst.map fun x => (x.seg, x.cats)) c.present hrows' hfuel (by
        intro y hy
        rcases hi with rfl | rfl
        · cases hy
        · cases hy; exact hfit')
    obtain ⟨im, f1, f2, f3, f4⟩ := rgb_bits (e := te) (by omega)
    refine ⟨te, im, mat2np_run c1 c2 c3, f1, by rw [f2, c5], by rw [f3, c6], ?_, ?_⟩
    · intro i _ j _ t h1 h2
      rw [f4 t h2, c4]
      simp [show ¬ t < 20 by omega]
    · intro t ht
      have hb : (fun i j => colourBit im i j t) = te.at_ t := by
        funext i j
        rw [f4 t (by omega), c4]
        simp [ht]
      refine ⟨e.at_ t, ?_, ?_⟩
      · intro i hi j hj
        have := d4 t ht i hi j hj
        simpa using this
      · rw [hb]
        exact c8 t ht
  obtain ⟨e1, im1, p1, p2, p3⟩ := one (some x) (Or.inr rfl)
  obtain ⟨e0, im0, q1, q2, q3⟩ := one none (Or.inl rfl)
  refine ⟨im0, im1, _, _, _, routine_run h (e0 := e0) (e1 := e1) ?_ ?_ q2 p2, hB, q3, p3, train_map _,
    inst_map hfit.small hfit.count⟩
  · rw [hthin]; exact p1
  · rw [hthin]; exact q1

end EdgeEval.Props
