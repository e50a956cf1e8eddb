import Verif.Model.Images
import Verif.Props.P08

/-!
# C85: images and data points
-/

namespace Verif.Props
open Verif.Py Verif.Model

/-! ### Pilatus -/

/-- The `.tif` file that belongs to the index `v`. -/
noncomputable def tifOf (pre : Str) (v : ℝ) : Str := pre ++ ['_'] ++ pad5 (truncReal v) ++ tifExt

/-- The `.cbf` file that belongs to the index `v`. -/
noncomputable def cbfOf (pre : Str) (v : ℝ) : Str := pre ++ ['_'] ++ pad5 (truncReal v) ++ cbfExt

/-- The file for an entry of the index column has the image `i`. -/
def ImageFor (disk : List (Str × Img)) (pre : Str) (x : Option ℝ) (i : Img) : Prop :=
  ∃ v : ℝ, x = some v ∧ dictGet disk (tifOf pre v) = .ok i

/-- There is neither a `.tif` nor a `.cbf` file for an entry of the index column. -/
def NoImage (disk : List (Str × Img)) (pre : Str) (x : Option ℝ) : Prop :=
  ∃ v : ℝ, x = some v ∧ tifOf pre v ∉ disk.map Prod.fst ∧ cbfOf pre v ∉ disk.map Prod.fst

/-- The number of the file for an index that is a whole number is that number. -/
theorem truncReal_int (n : Int) : truncReal (n : ℝ) = n := by
  unfold truncReal
  split <;> simp

theorem imageMatch_name (pre : Str) (n : Int) {ext : Str} (hext : '/' ∉ ext) :
    imageMatch pre ext (pre ++ ['_'] ++ pad5 n ++ ext) = true := by
  unfold imageMatch
  have hdrop : (pre ++ ['_'] ++ pad5 n ++ ext).drop pre.length = ['_'] ++ pad5 n ++ ext := by
    rw [List.append_assoc, List.append_assoc, List.drop_left, ← List.append_assoc]
  rw [hdrop]
  simp only [Bool.and_eq_true, List.all_eq_true, bne_iff_ne, ne_eq]
  refine ⟨⟨?_, ?_⟩, ?_⟩
  · rw [startsWith_iff]
    exact ⟨['_'] ++ pad5 n ++ ext, by simp only [List.append_assoc]⟩
  · rw [startsWith_iff, List.reverse_append]
    exact List.prefix_append _ _
  · intro c hc
    rw [List.mem_append, List.mem_append] at hc
    rcases hc with (hc | hc) | hc
    · rw [List.mem_singleton] at hc; rw [hc]; decide
    · exact ((pad5_spec n).2.1 c hc).2.2.2
    · rintro rfl; exact hext hc

theorem mem_pilatusList (files : List Str) (pre p : Str) :
    p ∈ pilatusList files pre ↔ p ∈ files ∧ (imageMatch pre tifExt p = true ∨ imageMatch pre cbfExt p = true) := by
  unfold pilatusList
  rw [List.mem_mergeSort, List.mem_append, List.mem_filter, List.mem_filter]
  tauto

theorem mem_tif (files : List Str) (pre : Str) (v : ℝ) :
    tifOf pre v ∈ pilatusList files pre ↔ tifOf pre v ∈ files := by
  rw [mem_pilatusList]
  exact ⟨fun h => h.1, fun h => ⟨h, Or.inl (imageMatch_name pre _ (by decide))⟩⟩

theorem mem_cbf (files : List Str) (pre : Str) (v : ℝ) :
    cbfOf pre v ∈ pilatusList files pre ↔ cbfOf pre v ∈ files := by
  rw [mem_pilatusList]
  exact ⟨fun h => h.1, fun h => ⟨h, Or.inr (imageMatch_name pre _ (by decide))⟩⟩

theorem dictGet_mem {β : Type} {d : List (Str × β)} {k : Str} {v : β} (h : dictGet d k = .ok v) : k ∈ d.map Prod.fst := by
  by_contra hk
  induction d with
  | nil => cases h
  | cons p d ih =>
    simp only [List.map_cons, List.mem_cons, not_or] at hk
    unfold dictGet at h
    rw [if_neg (fun e => hk.1 e.symm)] at h
    exact ih h hk.2

theorem dictGet_not_mem {β : Type} {d : List (Str × β)} {k : Str} (h : k ∉ d.map Prod.fst) : dictGet d k = .error .keyError := by
  induction d with
  | nil => rfl
  | cons p d ih =>
    simp only [List.map_cons, List.mem_cons, not_or] at h
    unfold dictGet
    rw [if_neg (fun e => h.1 e.symm)]
    exact ih h.2

/-- One index with a `.tif` file. -/
theorem step_image {disk : List (Str × Img)} {pre : Str} {first : Img} {acc : List Img} {x : Option ℝ} {i : Img}
    (h : ImageFor disk pre x i) :
    pilatusStep disk (pilatusList (disk.map Prod.fst) pre) pre first acc x =
      if imgShape i = imgShape first then .ok (acc ++ [i]) else .error .valueError := by
  obtain ⟨v, rfl, hv⟩ := h
  unfold pilatusStep pilatusName
  simp only [bind_ok]
  have hm : pre ++ ['_'] ++ pad5 (truncReal v) ++ tifExt ∈ pilatusList (disk.map Prod.fst) pre :=
    (mem_tif _ pre v).2 (dictGet_mem hv)
  rw [if_pos hm]
  have ho : openImage disk (pre ++ ['_'] ++ pad5 (truncReal v) ++ tifExt) = .ok i := by
    unfold openImage
    unfold tifOf at hv
    rw [hv]
  rw [ho, bind_ok]
  rfl

/-- One index without a file. -/
theorem step_none {disk : List (Str × Img)} {pre : Str} {first : Img} {acc : List Img} {x : Option ℝ}
    (h : NoImage disk pre x) :
    pilatusStep disk (pilatusList (disk.map Prod.fst) pre) pre first acc x = .ok acc := by
  obtain ⟨v, rfl, h1, h2⟩ := h
  unfold pilatusStep pilatusName
  simp only [bind_ok]
  have hm1 : pre ++ ['_'] ++ pad5 (truncReal v) ++ tifExt ∉ pilatusList (disk.map Prod.fst) pre :=
    fun h => h1 ((mem_tif _ pre v).1 h)
  have hm2 : pre ++ ['_'] ++ pad5 (truncReal v) ++ cbfExt ∉ pilatusList (disk.map Prod.fst) pre :=
    fun h => h2 ((mem_cbf _ pre v).1 h)
  rw [if_neg hm1, if_neg hm2]

/-- One index with a `.cbf` file only. -/
theorem step_cbf {disk : List (Str × Img)} {pre : Str} {first : Img} {acc : List Img} {v : ℝ}
    (h1 : tifOf pre v ∉ disk.map Prod.fst) (h2 : cbfOf pre v ∈ disk.map Prod.fst) :
    pilatusStep disk (pilatusList (disk.map Prod.fst) pre) pre first acc (some v) = .error .osError := by
  unfold pilatusStep pilatusName
  simp only [bind_ok]
  have hm : pre ++ ['_'] ++ pad5 (truncReal v) ++ cbfExt ∈ pilatusList (disk.map Prod.fst) pre :=
    (mem_cbf _ pre v).2 h2
  have hm1 : pre ++ ['_'] ++ pad5 (truncReal v) ++ tifExt ∉ pilatusList (disk.map Prod.fst) pre :=
    fun h => h1 ((mem_tif _ pre v).1 h)
  rw [if_neg hm1, if_pos hm]
  have ho : openImage disk (pre ++ ['_'] ++ pad5 (truncReal v) ++ tifExt) = .error .osError := by
    unfold openImage
    have := dictGet_not_mem h1
    unfold tifOf at this
    rw [this]
  rw [ho]
  rfl

/-- The three cases of an entry of the index column. -/
theorem entry_cases (disk : List (Str × Img)) (pre : Str) (x : Option ℝ) :
    x = none ∨ (∃ i, ImageFor disk pre x i) ∨ NoImage disk pre x ∨
      ∃ v, x = some v ∧ tifOf pre v ∉ disk.map Prod.fst ∧ cbfOf pre v ∈ disk.map Prod.fst := by
  cases x with
  | none => exact Or.inl rfl
  | some v =>
    by_cases h : tifOf pre v ∈ disk.map Prod.fst
    · obtain ⟨i, hi⟩ := dictGet_of_mem h
      exact Or.inr (Or.inl ⟨i, v, rfl, hi⟩)
    · by_cases h' : cbfOf pre v ∈ disk.map Prod.fst
      · exact Or.inr (Or.inr (Or.inr ⟨v, rfl, h, h'⟩))
      · exact Or.inr (Or.inr (Or.inl ⟨v, rfl, h, h'⟩))

open Classical in
/-- The loop over the index column. -/
theorem fold_pilatus {disk : List (Str × Img)} {pre : Str} {first : Img} (index : List (Option ℝ)) {acc out : List Img}
    (h : index.foldlM (pilatusStep disk (pilatusList (disk.map Prod.fst) pre) pre first) acc = .ok out) :
    ∃ imgs, out = acc ++ imgs ∧ (∀ x ∈ index, (∃ i, ImageFor disk pre x i) ∨ NoImage disk pre x) ∧
      List.Forall₂ (ImageFor disk pre) (index.filter fun x => ∃ i, ImageFor disk pre x i) imgs := by
  induction index generalizing acc with
  | nil =>
    cases h
    exact ⟨[], by simp, by simp, by simp⟩
  | cons x index ih =>
    rw [List.foldlM_cons] at h
    rcases entry_cases disk pre x with rfl | ⟨i, hi⟩ | hn | ⟨v, rfl, h1, h2⟩
    · cases h
    · rw [step_image hi] at h
      split at h
      · rw [bind_ok] at h
        obtain ⟨imgs, h1, h2, h3⟩ := ih h
        refine ⟨i :: imgs, by rw [h1, List.append_assoc]; rfl, ?_, ?_⟩
        · rintro y hy
          rcases List.mem_cons.1 hy with rfl | hy
          · exact Or.inl ⟨i, hi⟩
          · exact h2 y hy
        · rw [List.filter_cons_of_pos (by simpa using ⟨i, hi⟩)]
          exact List.Forall₂.cons hi h3
      · cases h
    · rw [step_none hn, bind_ok] at h
      obtain ⟨imgs, h1, h2, h3⟩ := ih h
      refine ⟨imgs, h1, ?_, ?_⟩
      · rintro y hy
        rcases List.mem_cons.1 hy with rfl | hy
        · exact Or.inr hn
        · exact h2 y hy
      · rw [List.filter_cons_of_neg]
        · exact h3
        · simp only [decide_eq_true_eq]
          rintro ⟨i, v, rfl, hv⟩
          obtain ⟨v', hvv, hnm, -⟩ := hn
          cases hvv
          exact hnm (dictGet_mem hv)
    · rw [step_cbf h1 h2] at h
      cases h

/-- The folder and name prefix of the images of a scan. -/
def pilatusPrefix (dir name : Str) : Str := detectorDir dir name p100kKey ++ name

/-- The index column of the pilatus detector. -/
def pilatusIndex (data : List (Str × List (Option ℝ))) : Option (List (Option ℝ)) := optColumn data (p100kKey ++ indexSuffix)

theorem loadPilatus_index {disk : List (Str × Img)} {dir name : Str} {data : List (Str × List (Option ℝ))}
    {index : List (Option ℝ)} (hidx : pilatusIndex data = some index) {out : List Img} :
    loadPilatus disk dir name data p100kKey = .ok out ↔
      ∃ f first l, getItem (pilatusList (disk.map Prod.fst) (pilatusPrefix dir name)) 0 = .ok f ∧
        openImage disk f = .ok first ∧
        index.foldlM (pilatusStep disk (pilatusList (disk.map Prod.fst) (pilatusPrefix dir name)) (pilatusPrefix dir name) first) []
          = .ok l ∧
        out = l ++ List.replicate (index.length - l.length) (zeroImage first) := by
  unfold loadPilatus
  simp only
  rw [show optColumn data (p100kKey ++ indexSuffix) = some index from hidx]
  change (getItem (pilatusList (disk.map Prod.fst) (pilatusPrefix dir name)) 0 >>= _) = _ ↔ _
  rw [bind_eq_ok]
  constructor
  · rintro ⟨f, hf, h⟩
    rw [bind_eq_ok] at h
    obtain ⟨first, h1, h⟩ := h
    simp only at h
    rw [bind_eq_ok] at h
    obtain ⟨l, h2, h⟩ := h
    cases h
    exact ⟨f, first, l, hf, h1, h2, rfl⟩
  · rintro ⟨f, first, l, hf, h1, h2, rfl⟩
    refine ⟨f, hf, ?_⟩
    rw [h1, bind_ok]
    simp only
    refine Eq.trans (congrArg (· >>= _) h2) ?_
    rfl

open Classical in
/-- C85: what `_load_pilatus` returns with an index column: the images of the points that have one, in
order, followed by black images. -/
theorem C85_pilatus_exact (disk : List (Str × Img)) (dir name : Str) (data : List (Str × List (Option ℝ)))
    (index : List (Option ℝ)) (hidx : pilatusIndex data = some index) (out : List Img)
    (h : loadPilatus disk dir name data p100kKey = .ok out) :
    ∃ imgs first, List.Forall₂ (ImageFor disk (pilatusPrefix dir name))
        (index.filter fun x => ∃ i, ImageFor disk (pilatusPrefix dir name) x i) imgs ∧
      out = imgs ++ List.replicate (index.length - imgs.length) (zeroImage first) ∧ out.length = index.length := by
  obtain ⟨f, first, l, -, -, h2, rfl⟩ := (loadPilatus_index hidx).1 h
  obtain ⟨imgs, h3, h4, h5⟩ := fold_pilatus index h2
  rw [List.nil_append] at h3
  subst h3
  refine ⟨l, first, h5, rfl, ?_⟩
  have h6 := h5.length_eq
  have h7 := List.length_filter_le (fun x => decide (∃ i, ImageFor disk (pilatusPrefix dir name) x i)) index
  rw [List.length_append, List.length_replicate]
  omega

/-- C85: if every point has a `.tif` file, all of one shape, the stack holds the image of every point
at the position of the point. -/
theorem C85_pilatus_partial (disk : List (Str × Img)) (dir name : Str) (data : List (Str × List (Option ℝ)))
    (index : List (Option ℝ)) (hidx : pilatusIndex data = some index) (hne : index ≠ []) (shape : List Nat)
    (hshape : ∀ f ∈ disk, imgShape f.2 = shape)
    (hall : ∀ x ∈ index, ∃ i, ImageFor disk (pilatusPrefix dir name) x i) :
    ∃ out, loadPilatus disk dir name data p100kKey = .ok out ∧
      List.Forall₂ (ImageFor disk (pilatusPrefix dir name)) index out := by
  set pre := pilatusPrefix dir name with hpre
  have hsh : ∀ p i, dictGet disk p = .ok i → imgShape i = shape := by
    intro p i hp
    have : ∀ d : List (Str × Img), (∀ f ∈ d, imgShape f.2 = shape) → dictGet d p = .ok i → imgShape i = shape := by
      intro d
      induction d with
      | nil => intro _ h; cases h
      | cons q d ih =>
        intro hd h
        unfold dictGet at h
        split at h
        · cases h
          exact hd _ List.mem_cons_self
        · exact ih (fun f hf => hd f (List.mem_cons_of_mem _ hf)) h
    exact this disk hshape hp
  have hlist : ∃ f, getItem (pilatusList (disk.map Prod.fst) pre) 0 = .ok f ∧ ∃ first, openImage disk f = .ok first ∧ imgShape first = shape := by
    obtain ⟨x, xs, rfl⟩ := List.exists_cons_of_ne_nil hne
    obtain ⟨i, v, rfl, hv⟩ := hall x List.mem_cons_self
    have hm := (mem_tif _ pre v).2 (dictGet_mem hv)
    obtain ⟨f, fs, hf⟩ := List.exists_cons_of_ne_nil (List.ne_nil_of_mem hm)
    have hfm : f ∈ disk.map Prod.fst := ((mem_pilatusList _ pre f).1 (by rw [hf]; exact List.mem_cons_self)).1
    obtain ⟨first, h1⟩ := dictGet_of_mem hfm
    refine ⟨f, by rw [hf]; rfl, first, ?_, hsh f first h1⟩
    unfold openImage
    rw [h1]
  obtain ⟨f, hf, first, h1, h2⟩ := hlist
  have hfold : ∀ (l : List (Option ℝ)) acc, (∀ x ∈ l, ∃ i, ImageFor disk pre x i) →
      ∃ imgs, l.foldlM (pilatusStep disk (pilatusList (disk.map Prod.fst) pre) pre first) acc = .ok (acc ++ imgs) ∧
        List.Forall₂ (ImageFor disk pre) l imgs := by
    intro l
    induction l with
    | nil => intro acc _; exact ⟨[], by simp [List.foldlM]; rfl, List.Forall₂.nil⟩
    | cons x l ih =>
      intro acc hl
      obtain ⟨i, hi⟩ := hl x List.mem_cons_self
      obtain ⟨v, hx, hv⟩ := hi
      obtain ⟨imgs, h3, h4⟩ := ih (acc ++ [i]) (fun y hy => hl y (List.mem_cons_of_mem _ hy))
      refine ⟨i :: imgs, ?_, List.Forall₂.cons ⟨v, hx, hv⟩ h4⟩
      rw [List.foldlM_cons, step_image ⟨v, hx, hv⟩, if_pos (by rw [hsh _ i hv, h2]), bind_ok, h3, List.append_assoc]
      rfl
  obtain ⟨imgs, h3, h4⟩ := hfold index [] hall
  rw [List.nil_append] at h3
  refine ⟨imgs, (loadPilatus_index hidx).2 ⟨f, first, imgs, hf, h1, h3, ?_⟩, h4⟩
  rw [h4.length_eq, Nat.sub_self]
  simp

/-- C85 is false when an image is missing: after points `a` with images and points `b` without, the
image of the next point `x` is stored at the position of the first point that has none. -/
theorem C85_shifted (disk : List (Str × Img)) (dir name : Str) (data : List (Str × List (Option ℝ)))
    (a b c : List (Option ℝ)) (x : Option ℝ) (i : Img) (hidx : pilatusIndex data = some (a ++ b ++ x :: c))
    (ha : ∀ y ∈ a, ∃ j, ImageFor disk (pilatusPrefix dir name) y j) (hb : ∀ y ∈ b, NoImage disk (pilatusPrefix dir name) y)
    (hx : ImageFor disk (pilatusPrefix dir name) x i) (out : List Img)
    (h : loadPilatus disk dir name data p100kKey = .ok out) : out[a.length]? = some i := by
  classical
  obtain ⟨imgs, first, h1, h2, -⟩ := C85_pilatus_exact disk dir name data _ hidx out h
  have hnb : ∀ y ∈ b, ¬ ∃ j, ImageFor disk (pilatusPrefix dir name) y j := by
    rintro y hy ⟨j, v, rfl, hv⟩
    obtain ⟨v', hvv, hnm, -⟩ := hb _ hy
    cases hvv
    exact hnm (dictGet_mem hv)
  rw [List.filter_append, List.filter_append, List.filter_cons_of_pos (by simpa using ⟨i, hx⟩),
    List.filter_eq_self.2 (fun y hy => by simpa using ha y hy),
    List.filter_eq_nil_iff.2 (fun y hy => by simpa using hnb y hy), List.append_nil] at h1
  have hlen := h1.length_eq
  rw [List.length_append, List.length_cons] at hlen
  have hget : (a ++ x :: c.filter fun y => decide (∃ j, ImageFor disk (pilatusPrefix dir name) y j))[a.length]? = some x := by simp
  have hlt : a.length < imgs.length := by omega
  have h3 := (List.forall₂_iff_get.1 h1).2 a.length (by rw [List.length_append, List.length_cons]; omega) hlt
  obtain ⟨v, hv1, hv2⟩ := hx
  obtain ⟨v', hv3, hv4⟩ := h3
  rw [List.get_eq_getElem, List.getElem_append_right (le_refl _)] at hv3
  simp only [Nat.sub_self, List.getElem_cons_zero] at hv3
  rw [hv1] at hv3
  cases hv3
  rw [hv2] at hv4
  rw [h2, List.getElem?_append_left hlt, List.getElem?_eq_getElem hlt]
  cases hv4
  rfl

/-- C85 is false without an index column: all images are black, whatever the files contain. -/
theorem C85_no_index (disk : List (Str × Img)) (dir name : Str) (data : List (Str × List (Option ℝ)))
    (hidx : pilatusIndex data = none) (out : List Img) (h : loadPilatus disk dir name data p100kKey = .ok out) :
    ∀ i ∈ out, ∀ row ∈ i, ∀ v ∈ row, v = 0 := by
  unfold loadPilatus at h
  simp only at h
  rw [show optColumn data (p100kKey ++ indexSuffix) = none from hidx] at h
  rw [bind_eq_ok] at h
  obtain ⟨f, -, h⟩ := h
  rw [bind_eq_ok] at h
  obtain ⟨first, -, h⟩ := h
  simp only at h
  cases h
  intro i hi row hrow v hv
  rw [List.mem_replicate] at hi
  rw [hi.2] at hrow
  unfold zeroImage at hrow
  rw [List.mem_map] at hrow
  obtain ⟨r, -, rfl⟩ := hrow
  rw [List.mem_map] at hv
  obtain ⟨y, -, rfl⟩ := hv
  rfl

/-- C85: images in the `.cbf` format cannot be loaded. -/
theorem C85_cbf (disk : List (Str × Img)) (dir name : Str) (data : List (Str × List (Option ℝ)))
    (index : List (Option ℝ)) (hidx : pilatusIndex data = some index) (v : ℝ) (hv : some v ∈ index)
    (h1 : tifOf (pilatusPrefix dir name) v ∉ disk.map Prod.fst) (h2 : cbfOf (pilatusPrefix dir name) v ∈ disk.map Prod.fst)
    (out : List Img) : loadPilatus disk dir name data p100kKey ≠ .ok out := by
  intro h
  obtain ⟨f, first, l, -, -, h3, -⟩ := (loadPilatus_index hidx).1 h
  obtain ⟨imgs, -, h4, -⟩ := fold_pilatus index h3
  rcases h4 _ hv with ⟨i, v', hv', h5⟩ | ⟨v', hv', -, h5⟩
  · cases hv'
    exact h1 (dictGet_mem h5)
  · cases hv'
    exact h5 h2

theorem tifOf_nat_inj {pre : Str} {m n : Nat} (hm : m < 10) (hn : n < 10) (h : tifOf pre (m : ℝ) = tifOf pre (n : ℝ)) : m = n := by
  unfold tifOf at h
  rw [show (m : ℝ) = ((m : Int) : ℝ) by push_cast; rfl, show (n : ℝ) = ((n : Int) : ℝ) by push_cast; rfl,
    truncReal_int, truncReal_int] at h
  have h := List.append_cancel_left (List.append_cancel_right h)
  have hp : ∀ k : Nat, k < 10 → pad5 (k : Int) = ['0', '0', '0', '0', Char.ofNat (48 + k)] := by
    intro k hk
    have : natStr k = [Char.ofNat (48 + k)] := by unfold natStr; rw [if_pos hk]
    unfold pad5
    rw [if_pos (by omega), Int.toNat_natCast, this]
    rfl
  rw [hp m hm, hp n hn] at h
  have : ∀ m < 10, ∀ n < 10, Char.ofNat (48 + m) = Char.ofNat (48 + n) → m = n := by decide
  refine this m hm n hn ?_
  simpa using h

/-- Images of one pixel for the points 1, 2 and 3 of a scan, of which the one of point 2 may be missing. -/
noncomputable def exampleDisk (all : Bool) : List (Str × Img) :=
  [(tifOf (pilatusPrefix ['d'] ['s']) ((1 : Nat) : ℝ), [[1]]), (tifOf (pilatusPrefix ['d'] ['s']) ((3 : Nat) : ℝ), [[3]])] ++
    if all then [(tifOf (pilatusPrefix ['d'] ['s']) ((2 : Nat) : ℝ), [[2]])] else []

theorem exampleDisk_get (all : Bool) :
    ImageFor (exampleDisk all) (pilatusPrefix ['d'] ['s']) (some ((1 : Nat) : ℝ)) [[1]] ∧
    ImageFor (exampleDisk all) (pilatusPrefix ['d'] ['s']) (some ((3 : Nat) : ℝ)) [[3]] ∧
    (all = true → ImageFor (exampleDisk all) (pilatusPrefix ['d'] ['s']) (some ((2 : Nat) : ℝ)) [[2]]) := by
  have hne : ∀ m n : Nat, m < 10 → n < 10 → m ≠ n →
      tifOf (pilatusPrefix ['d'] ['s']) (m : ℝ) ≠ tifOf (pilatusPrefix ['d'] ['s']) (n : ℝ) :=
    fun m n hm hn h e => h (tifOf_nat_inj hm hn e)
  refine ⟨⟨_, rfl, ?_⟩, ⟨_, rfl, ?_⟩, fun h => ⟨_, rfl, ?_⟩⟩
  · unfold exampleDisk
    rw [List.cons_append, dictGet, if_pos rfl]
  · unfold exampleDisk
    rw [List.cons_append, dictGet, if_neg (hne 1 3 (by decide) (by decide) (by decide)), List.cons_append, dictGet, if_pos rfl]
  · unfold exampleDisk
    rw [List.cons_append, dictGet, if_neg (hne 1 2 (by decide) (by decide) (by decide)), List.cons_append, dictGet,
      if_neg (hne 3 2 (by decide) (by decide) (by decide)), h, if_pos rfl, List.nil_append, dictGet, if_pos rfl]

/-- The hypotheses of `C85_pilatus_partial` are met by three images of one pixel. -/
example : ∃ (data : List (Str × List (Option ℝ))) (index : List (Option ℝ)), pilatusIndex data = some index ∧ index.length = 3 ∧
    (∀ f ∈ exampleDisk true, imgShape f.2 = [1]) ∧
    ∀ x ∈ index, ∃ i, ImageFor (exampleDisk true) (pilatusPrefix ['d'] ['s']) x i := by
  refine ⟨[(p100kKey ++ indexSuffix, [some ((1 : Nat) : ℝ), some ((2 : Nat) : ℝ), some ((3 : Nat) : ℝ)])], _, rfl, rfl, ?_, ?_⟩
  · intro f hf
    simp only [exampleDisk, if_true, List.cons_append, List.nil_append, List.mem_cons, List.not_mem_nil, or_false] at hf
    rcases hf with rfl | rfl | rfl <;> rfl
  · obtain ⟨h1, h3, h2⟩ := exampleDisk_get true
    intro x hx
    simp only [List.mem_cons, List.not_mem_nil, or_false] at hx
    rcases hx with rfl | rfl | rfl
    exacts [⟨_, h1⟩, ⟨_, h2 rfl⟩, ⟨_, h3⟩]

/-! ### Lambda and eiger -/

theorem npDelete_spec {α : Type} {l : List α} {idxes : List Nat} {out : List α} (h : npDelete l idxes = .ok out) :
    (∀ i ∈ idxes, i < l.length) ∧ ∃ ks : List Nat, ks.Pairwise (· < ·) ∧ (∀ k, k ∈ ks ↔ k < l.length ∧ k ∉ idxes) ∧
      List.Forall₂ (fun k x => l[k]? = some x) ks out := by
  unfold npDelete at h
  split at h
  · rename_i hlt
    cases h
    refine ⟨hlt, (l.zipIdx.filter fun (p : α × Nat) => p.2 ∉ idxes).map Prod.snd, ?_, ?_, ?_⟩
    · have h1 : (l.zipIdx.map Prod.snd).Pairwise (· < ·) := by
        have : l.zipIdx.map Prod.snd = List.range l.length := by
          rw [List.zipIdx_map_snd, List.range_eq_range']
        rw [this]
        exact List.pairwise_lt_range
      exact h1.sublist (List.Sublist.map _ List.filter_sublist)
    · intro k
      rw [List.mem_map]
      constructor
      · rintro ⟨⟨x, j⟩, hm, rfl⟩
        rw [List.mem_filter] at hm
        have := List.mem_zipIdx hm.1
        refine ⟨by have := this.2.1; simp only; omega, by simpa using hm.2⟩
      · rintro ⟨h1, h2⟩
        refine ⟨(l[k], k), ?_, rfl⟩
        rw [List.mem_filter]
        refine ⟨?_, by simpa using h2⟩
        rw [List.mem_zipIdx_iff_getElem?]
        exact List.getElem?_eq_getElem _
    · rw [List.forall₂_map_left_iff, List.forall₂_map_right_iff, List.forall₂_same]
      rintro ⟨x, k⟩ hm
      exact List.mem_zipIdx_iff_getElem?.1 (List.mem_filter.1 hm).1
  · cases h

/-- C85: with an index column the stack of a lambda or eiger detector consists of the images whose number
occurs in the column, in the order of the file. -/
theorem C85_nexus_exact (stack : List Img) (data : List (Str × List (Option ℝ))) (det : Str) (index : List (Option ℝ))
    (hidx : optColumn data (det ++ indexSuffix) = some index) :
    ∃ out, loadNexus (some stack) data det = .ok out ∧
      ∃ ks : List Nat, ks.Pairwise (· < ·) ∧ (∀ k, k ∈ ks ↔ k < stack.length ∧ some (k : ℝ) ∈ index) ∧
        List.Forall₂ (fun k x => stack[k]? = some x) ks out := by
  classical
  unfold loadNexus selectImages
  rw [hidx]
  simp only
  cases h : npDelete stack ((List.range stack.length).filter fun (k : Nat) => ¬ indexHas index k) with
  | error e =>
    unfold npDelete at h
    rw [if_pos] at h
    · cases h
    · intro i hi
      exact List.mem_range.1 (List.mem_filter.1 hi).1
  | ok out =>
    obtain ⟨-, ks, h1, h2, h3⟩ := npDelete_spec h
    refine ⟨out, rfl, ks, h1, fun k => ?_, h3⟩
    rw [h2, List.mem_filter, List.mem_range]
    unfold indexHas
    simp only [decide_not, Bool.not_eq_true', decide_eq_false_iff_not, not_and, not_not]
    exact ⟨fun h => ⟨h.1, h.2 h.1⟩, fun h => ⟨h.1, fun _ => h.2⟩⟩

/-- C85: without an index column the stack is the one in the file. -/
theorem C85_nexus_no_index (stack : List Img) (data : List (Str × List (Option ℝ))) (det : Str)
    (hidx : optColumn data (det ++ indexSuffix) = none) : loadNexus (some stack) data det = .ok stack := by
  unfold loadNexus selectImages
  rw [hidx]

theorem eq_of_pairwise_lt {a b : List Nat} (ha : a.Pairwise (· < ·)) (hb : b.Pairwise (· < ·)) (h : ∀ k, k ∈ a ↔ k ∈ b) : a = b := by
  refine List.Perm.eq_of_pairwise (le := (· < ·)) (fun x y _ _ h1 h2 => absurd h1 (Nat.lt_asymm h2)) ha hb ?_
  refine (List.perm_ext_iff_of_nodup ?_ ?_).2 h
  · exact ha.imp fun h => Nat.ne_of_lt h
  · exact hb.imp fun h => Nat.ne_of_lt h

/-- C85: with strictly increasing image numbers the stack holds the image of every point at the position
of the point. -/
theorem C85_nexus_partial (stack : List Img) (data : List (Str × List (Option ℝ))) (det : Str) (ns : List Nat)
    (hidx : optColumn data (det ++ indexSuffix) = some (ns.map fun (n : Nat) => some (n : ℝ)))
    (hinc : ns.Pairwise (· < ·)) (hlt : ∀ n ∈ ns, n < stack.length) :
    ∃ out, loadNexus (some stack) data det = .ok out ∧ List.Forall₂ (fun n x => stack[n]? = some x) ns out := by
  obtain ⟨out, h1, ks, h2, h3, h4⟩ := C85_nexus_exact stack data det _ hidx
  refine ⟨out, h1, ?_⟩
  rw [eq_of_pairwise_lt hinc h2 ?_]
  · exact h4
  · intro k
    rw [h3, List.mem_map]
    constructor
    · exact fun hk => ⟨hlt k hk, k, hk, rfl⟩
    · rintro ⟨-, n, hn, he⟩
      have he : (n : ℝ) = k := by simpa using he
      rw [← Nat.cast_injective he]
      exact hn

/-- The hypotheses of `C85_nexus_partial` are met by the images 0 and 2 of three. -/
example : ∃ (stack : List Img) (data : List (Str × List (Option ℝ))) (ns : List Nat), stack.length = 3 ∧ ns = [0, 2] ∧
    optColumn data (lambdaKey ++ indexSuffix) = some (ns.map fun (n : Nat) => some (n : ℝ)) ∧
    ns.Pairwise (· < ·) ∧ ∀ n ∈ ns, n < stack.length :=
  ⟨[[[1]], [[2]], [[3]]], [(lambdaKey ++ indexSuffix, [some ((0 : Nat) : ℝ), some ((2 : Nat) : ℝ)])], [0, 2], rfl, rfl, rfl,
    by decide, by decide⟩

/-- C85 is false for a lambda or eiger detector when an image number is repeated: the stack then has
fewer images than there are points. -/
theorem C85_nexus_repeated (stack : List Img) (data : List (Str × List (Option ℝ))) (det : Str) (index : List (Option ℝ))
    (hidx : optColumn data (det ++ indexSuffix) = some index) (hdup : ¬ index.Nodup) (out : List Img)
    (h : loadNexus (some stack) data det = .ok out) : out.length < index.length := by
  classical
  obtain ⟨out', h1, ks, h2, h3, h4⟩ := C85_nexus_exact stack data det _ hidx
  rw [h] at h1
  cases h1
  rw [← h4.length_eq]
  have hnd : ks.Nodup := h2.imp fun h => Nat.ne_of_lt h
  have hmap : (ks.map fun (k : Nat) => some (k : ℝ)).Nodup := hnd.map fun a b hab => Nat.cast_injective (R := ℝ) (by simpa using hab)
  have hsub : (ks.map fun (k : Nat) => some (k : ℝ)).toFinset ⊆ index.toFinset := by
    intro x hx
    rw [List.mem_toFinset, List.mem_map] at hx
    obtain ⟨k, hk, rfl⟩ := hx
    exact List.mem_toFinset.2 ((h3 k).1 hk).2
  have h5 := Finset.card_le_card hsub
  rw [List.toFinset_card_of_nodup hmap, List.length_map] at h5
  have h6 : index.toFinset.card < index.length := by
    refine lt_of_le_of_ne (List.toFinset_card_le index) fun h => hdup ?_
    exact (Multiset.toFinset_card_eq_card_iff_nodup (m := (index : Multiset (Option ℝ)))).1 h
  omega

/-- C85 is false for a lambda or eiger detector when the image numbers are not in the order of the
points: the stack does not depend on the order of the index column. -/
theorem C85_nexus_order (stack : List Img) (data data' : List (Str × List (Option ℝ))) (det : Str) (index index' : List (Option ℝ))
    (hidx : optColumn data (det ++ indexSuffix) = some index) (hidx' : optColumn data' (det ++ indexSuffix) = some index')
    (hset : ∀ x, x ∈ index ↔ x ∈ index') : loadNexus (some stack) data det = loadNexus (some stack) data' det := by
  unfold loadNexus selectImages
  rw [hidx, hidx']
  have : indexHas index = indexHas index' := funext fun k => propext (hset _)
  simp only
  congr 1
  refine List.filter_congr fun k _ => ?_
  rw [decide_eq_decide, this]

/-- C85: an index that is not a number is refused. -/
theorem C85_nan_index (disk : List (Str × Img)) (dir name : Str) (data : List (Str × List (Option ℝ)))
    (rest : List (Option ℝ)) (hidx : pilatusIndex data = some (none :: rest)) (f : Str) (first : Img)
    (hf : getItem (pilatusList (disk.map Prod.fst) (pilatusPrefix dir name)) 0 = .ok f) (hi : openImage disk f = .ok first) :
    loadPilatus disk dir name data p100kKey = .error .valueError := by
  unfold loadPilatus
  simp only
  rw [show optColumn data (p100kKey ++ indexSuffix) = some (none :: rest) from hidx]
  change (getItem (pilatusList (disk.map Prod.fst) (pilatusPrefix dir name)) 0 >>= _) = _
  rw [hf, bind_ok, hi, bind_ok]
  rfl

end Verif.Props
