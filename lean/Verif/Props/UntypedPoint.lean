import Verif.Model.ConvertingView
import Verif.Lemmas.RawConvert
import Verif.Props.BufferConvert
import Verif.Props.TypedViews

/-!
# Properties C30 (untyped points), C64 (converting attribute views), C65 (`transform_attribute`)

`conversion a b` (Spec/Convert.lean) is the function that turns values of type `a` into values of type
`b`, if there is one.
-/

namespace Pasture.Props

open Spec BorrowedBuffer BorrowedMutBuffer OwningBuffer

/-! ## C30 -/

/-- The bytes of attribute `d`: those at its offset, if the layout has the attribute and the memory of
    the point reaches that far. -/
def storedIn (p : UntypedPoint) (d : AttrDef) : Option Bytes :=
  match p.layout.attributes.find? (fun m => m.definition = d) with
  | some m => if m.offset + m.size ≤ p.buffer.length then some (window p.buffer m.offset m.size) else none
  | none => none

/-- `get_raw_attribute` returns those bytes, and otherwise an error. -/
theorem C30_get_raw (p : UntypedPoint) (d : AttrDef) :
    p.getRawAttribute d = match storedIn p d with
      | some v => .ok v
      | none => .error .err := by
  unfold UntypedPoint.getRawAttribute storedIn
  rw [getAttribute_eq]
  cases p.layout.attributes.find? (fun m => m.definition = d) with
  | none => rfl
  | some m =>
    have hsz : m.datatype.size = m.size := rfl
    simp only [orErr, bind, Except.bind, hsz]
    by_cases h : m.offset + m.size ≤ p.buffer.length
    · rw [if_pos h, sliceGet_ok h]
      have : decide (p.buffer.length < m.offset + m.size) = false := decide_eq_false (by omega)
      rw [this]
      rfl
    · rw [if_neg h]
      have : decide (p.buffer.length < m.offset + m.size) = true := decide_eq_true (by omega)
      rw [this]
      rfl

theorem storedIn_length {p : UntypedPoint} {d : AttrDef} {v : Bytes} (h : storedIn p d = some v) :
    v.length = d.size := by
  unfold storedIn at h
  cases hf : p.layout.attributes.find? (fun m => m.definition = d) with
  | none => rw [hf] at h; cases h
  | some m =>
    rw [hf] at h
    dsimp only at h
    by_cases hl : m.offset + m.size ≤ p.buffer.length
    · rw [if_pos hl] at h
      cases h
      rw [length_window hl]
      exact congrArg AttrDef.size (find_def_some hf).2
    · rw [if_neg hl] at h; cases h

theorem window_overwrite_apart {bytes v : Bytes} {o o' n : Nat} (ho : o + v.length ≤ bytes.length)
    (h : o + v.length ≤ o' ∨ o' + n ≤ o) : window (overwrite bytes o v) o' n = window bytes o' n := by
  unfold window overwrite
  apply List.ext_getElem?
  intro i
  simp only [List.getElem?_take, List.getElem?_drop, List.getElem?_append, List.length_append,
    List.length_take]
  by_cases hi : i < n
  · rw [if_pos hi, if_pos hi]
    rcases h with h | h
    · rw [if_neg (by omega)]
      congr 1
      omega
    · rw [if_pos (by omega), if_pos (by omega), if_pos (by omega)]
  · rw [if_neg hi, if_neg hi]

theorem window_overwrite_same {bytes v : Bytes} {o : Nat} (ho : o + v.length ≤ bytes.length) :
    window (overwrite bytes o v) o v.length = v := by
  unfold window overwrite
  rw [List.append_assoc, List.drop_append_of_le_length (by simp; omega)]
  simp

/-- C30: `set_raw_attribute` of an attribute the point has, with a value of its size, succeeds; the
    attribute then has that value and every other attribute reads as before. The slice of an
    `UntypedPointSlice` may have any length, longer or shorter than a point. -/
theorem C30_set_raw (p : UntypedPoint) (hl : Solid p.layout) (d : AttrDef) (old v : Bytes)
    (hd : storedIn p d = some old) (hv : v.length = d.size) :
    ∃ q, p.setRawAttribute d v = .ok q ∧ q.layout = p.layout ∧ q.buffer.length = p.buffer.length ∧
      q.getRawAttribute d = .ok v ∧ ∀ d', d' ≠ d → q.getRawAttribute d' = p.getRawAttribute d' := by
  unfold storedIn at hd
  cases hf : p.layout.attributes.find? (fun m => m.definition = d) with
  | none => rw [hf] at hd; cases hd
  | some m =>
    rw [hf] at hd
    obtain ⟨hm, e⟩ := find_def_some hf
    have hvm : v.length = m.size := by rw [hv, ← e]; rfl
    dsimp only at hd
    have hlen : m.offset + m.size ≤ p.buffer.length := by
      apply Classical.byContradiction
      intro h
      rw [if_neg h] at hd
      cases hd
    have hlen' : m.offset + v.length ≤ p.buffer.length := by omega
    refine ⟨⟨p.layout, overwrite p.buffer m.offset v⟩, ?_, rfl, length_overwrite hlen', ?_, ?_⟩
    · unfold UntypedPoint.setRawAttribute
      rw [getAttribute_eq, hf]
      have hsz : m.datatype.size = m.size := rfl
      simp only [orErr, bind, Except.bind, hsz]
      have : decide (p.buffer.length < m.offset + m.size) = false := decide_eq_false (by omega)
      rw [this, slicePut_ok (by omega) hlen]
      rfl
    · rw [C30_get_raw]
      unfold storedIn
      rw [hf]
      dsimp only
      rw [length_overwrite hlen', if_pos hlen, ← hvm, window_overwrite_same hlen']
    · intro d' hne
      rw [C30_get_raw, C30_get_raw]
      unfold storedIn
      dsimp only
      cases hf' : p.layout.attributes.find? (fun m => m.definition = d') with
      | none => rfl
      | some m' =>
        obtain ⟨hm', e'⟩ := find_def_some hf'
        have hmm : m ≠ m' := fun h => hne (by rw [← e, ← e', h])
        have hap : m.offset + m.size ≤ m'.offset ∨ m'.offset + m'.size ≤ m.offset := by
          have hs : Std.Symm fun a b : Member => a.offset + a.size ≤ b.offset ∨ b.offset + b.size ≤ a.offset :=
            ⟨fun a b h => h.symm⟩
          exact hl.apart.forall hm hm' hmm
        dsimp only
        rw [length_overwrite hlen', window_overwrite_apart hlen' (by rw [hvm]; exact hap)]

/-- C30: an attribute the layout does not have, or that lies beyond the point's memory, is an error for
    reading and writing (an operation that returns an error leaves the point as it was). -/
theorem C30_errors (p : UntypedPoint) (d : AttrDef) (h : storedIn p d = none) (ty : DataType) (v : Bytes) :
    p.getRawAttribute d = .error .err ∧ p.setRawAttribute d v = .error .err ∧
      p.getAttribute d ty = .error .err ∧ p.setAttribute d d.datatype v = .error .err := by
  have h1 : p.getRawAttribute d = .error .err := by rw [C30_get_raw, h]
  have h2 : p.setRawAttribute d v = .error .err := by
    unfold UntypedPoint.setRawAttribute
    unfold storedIn at h
    rw [getAttribute_eq]
    cases hf : p.layout.attributes.find? (fun m => m.definition = d) with
    | none => rfl
    | some m =>
      rw [hf] at h
      dsimp only at h
      have hlen : ¬ m.offset + m.size ≤ p.buffer.length := fun hc => by rw [if_pos hc] at h; cases h
      have hsz : m.datatype.size = m.size := rfl
      simp only [orErr, bind, Except.bind, hsz]
      have : decide (p.buffer.length < m.offset + m.size) = true := decide_eq_true (by omega)
      rw [this]
      rfl
  refine ⟨h1, h2, ?_, ?_⟩
  · unfold UntypedPoint.getAttribute
    rw [h1]
    rfl
  · unfold UntypedPoint.setAttribute
    rw [if_neg (by simp), h2]

/-- A value of the wrong size is not reported as an error: the write panics. -/
theorem C30_violated_wrong_size (p : UntypedPoint) (d : AttrDef) (old v : Bytes)
    (hd : storedIn p d = some old) (hv : v.length ≠ d.size) : p.setRawAttribute d v = .error .panic := by
  unfold storedIn at hd
  unfold UntypedPoint.setRawAttribute
  rw [getAttribute_eq]
  cases hf : p.layout.attributes.find? (fun m => m.definition = d) with
  | none => rw [hf] at hd; cases hd
  | some m =>
    rw [hf] at hd
    dsimp only at hd
    have hlen : m.offset + m.size ≤ p.buffer.length := by
      apply Classical.byContradiction
      intro h
      rw [if_neg h] at hd
      cases hd
    have hsz : m.datatype.size = m.size := rfl
    have hvm : v.length ≠ m.size := by
      intro h
      apply hv
      rw [h, ← (find_def_some hf).2]
      rfl
    simp only [orErr, bind, Except.bind, hsz]
    have : decide (p.buffer.length < m.offset + m.size) = false := decide_eq_false (by omega)
    rw [this]
    unfold slicePut
    rw [if_neg (fun hc => hvm (by omega))]
    rfl

theorem converter_ok {d d' : AttrDef} (hn : d.name = d'.name) (h : d.datatype ≠ d'.datatype)
    {f : Bytes → Bytes} (hf : conversion d.datatype d'.datatype = some f) :
    ∃ c, getConverterForAttributes d d' = .ok (some c) ∧ Converts c d.datatype d'.datatype f := by
  obtain ⟨c, h1, h2⟩ := (generic_spec h).2 f hf
  refine ⟨c, ?_, h2⟩
  unfold getConverterForAttributes
  rw [assertThat_true (decide_eq_true hn)]
  simp only [bind, Except.bind]
  rw [if_neg h, h1]

theorem converter_panic {d d' : AttrDef} (hn : d.name = d'.name)
    (hf : conversion d.datatype d'.datatype = none) :
    getConverterForAttributes d d' = .error .panic := by
  have h : d.datatype ≠ d'.datatype := by
    intro h
    unfold conversion at hf
    rw [if_pos h] at hf
    cases hf
  unfold getConverterForAttributes
  rw [assertThat_true (decide_eq_true hn)]
  simp only [bind, Except.bind]
  rw [if_neg h, (generic_spec h).1 hf]

theorem conversion_same (a : DataType) : conversion a a = some id := by
  unfold conversion; rw [if_pos rfl]

/-- `get_attribute::<T>` of a stored attribute converts its value to `T`. When no conversion exists it
    panics (its documentation promises an error). -/
theorem C30_typed_get (p : UntypedPoint) (d : AttrDef) (v : Bytes) (hd : storedIn p d = some v)
    (ty : DataType) :
    p.getAttribute d ty = match conversion d.datatype ty with
      | some f => .ok (f v)
      | none => .error .panic := by
  have hr : p.getRawAttribute d = .ok v := by rw [C30_get_raw, hd]
  have hlen := storedIn_length hd
  unfold UntypedPoint.getAttribute
  rw [hr]
  simp only [bind, Except.bind]
  by_cases hty : ty = d.datatype
  · rw [if_neg (by simp [hty])]
    subst hty
    rw [conversion_same]
    exact copyFromSlice_ok (by rw [hlen]; simp [zeros]; rfl)
  · rw [if_pos (by simpa using hty)]
    cases hc : conversion d.datatype ty with
    | none =>
      rw [converter_panic (d := d) (d' := { d with datatype := ty }) rfl hc]
    | some f =>
      obtain ⟨c, h1, h2⟩ := converter_ok (d := d) (d' := { d with datatype := ty }) rfl
        (fun h => hty h.symm) hc
      rw [h1]
      simp only [orErr]
      exact h2.run _ _ hlen (by simp [zeros])

/-- `set_attribute::<T>` of a stored attribute stores the value converted to the attribute's type. -/
theorem C30_typed_set (p : UntypedPoint) (d : AttrDef) (old : Bytes)
    (hd : storedIn p d = some old) (ty : DataType) (v : Bytes) (hv : v.length = ty.size) :
    p.setAttribute d ty v = match conversion ty d.datatype with
      | some f => p.setRawAttribute d (f v)
      | none => .error .panic := by
  unfold UntypedPoint.setAttribute
  by_cases hty : ty = d.datatype
  · rw [if_neg (by simp [hty])]
    subst hty
    rw [conversion_same]
    rfl
  · rw [if_pos (by simpa using hty)]
    cases hc : conversion ty d.datatype with
    | none => rw [converter_panic (d := { d with datatype := ty }) (d' := d) rfl hc]; rfl
    | some f =>
      obtain ⟨c, h1, h2⟩ := converter_ok (d := { d with datatype := ty }) (d' := d) rfl hty hc
      simp only [bind, Except.bind]
      rw [h1]
      simp only [orErr]
      unfold UntypedPoint.updateRawAttribute UntypedPoint.setRawAttribute
      unfold storedIn at hd
      rw [getAttribute_eq]
      cases hf : p.layout.attributes.find? (fun m => m.definition = d) with
      | none => rw [hf] at hd; cases hd
      | some m =>
        rw [hf] at hd
        dsimp only at hd
        have hlen : m.offset + m.size ≤ p.buffer.length := by
          apply Classical.byContradiction
          intro h
          rw [if_neg h] at hd
          cases hd
        have hsz : m.datatype.size = m.size := rfl
        simp only [orErr, bind, Except.bind, hsz]
        have : decide (p.buffer.length < m.offset + m.size) = false := decide_eq_false (by omega)
        rw [this]
        simp only [bailIf]
        rw [sliceGet_ok hlen]
        dsimp only
        rw [h2.run _ _ hv (by
          rw [length_window hlen, ← (find_def_some hf).2]; rfl)]

/-- A fresh `UntypedPointBuffer` has every attribute of its layout, all zero. -/
theorem C30_new (l : PointLayout) (hl : Solid l) (m : Member) (hm : m ∈ l.attributes) :
    storedIn (UntypedPoint.new l) m.definition = some (List.replicate m.size 0) := by
  unfold storedIn UntypedPoint.new
  dsimp only
  rw [find_def_mem hl hm]
  have := hl.inside m hm
  dsimp only
  rw [if_pos (by simpa [zeros] using this)]
  simp only [window, zeros, List.drop_replicate, List.take_replicate]
  congr 2
  omega

example : storedIn (UntypedPoint.new exLayout) ⟨"b", .u16⟩ = some [0, 0] ∧
    (UntypedPoint.new exLayout).setAttribute ⟨"b", .u16⟩ .u8 [7] = .ok ⟨exLayout, [0, 0, 7, 0, 0, 0]⟩ ∧
    (UntypedPoint.newSlice exLayout [1, 2, 3]).getRawAttribute ⟨"b", .u16⟩ = .error .err := by
  refine ⟨by decide, by decide, by decide⟩

/-! ## C64 -/

theorem byName_of_mem {l : PointLayout} (hl : Solid l) {m : Member} (hm : m ∈ l.attributes) :
    l.getAttributeByName m.name = some m := by
  cases hf : l.getAttributeByName m.name with
  | none =>
    have := (PointLayout.getAttributeByName_isSome l m.name).2 (List.mem_map_of_mem hm)
    rw [hf] at this
    cases this
  | some m' =>
    unfold PointLayout.getAttributeByName at hf
    have h1 := List.mem_of_find?_eq_some hf
    have h2 : m'.name = m.name := by simpa using List.find?_some hf
    rw [List.inj_on_of_nodup_map hl.names h1 hm h2]

theorem byName_of_mem' {l : PointLayout} (hl : Solid l) {m : Member} (hm : m ∈ l.attributes) {n : String}
    (hn : m.name = n) : l.getAttributeByName n = some m := by
  subst hn
  exact byName_of_mem hl hm

theorem converting_view {β : Type} [BorrowedBuffer β] (b : β) (l : PointLayout) (hl : Solid l)
    (ps : List Point) (h : ShowsPoints b l ps) (d : AttrDef) (m : Member) (hm : m ∈ l.attributes)
    (hn : m.name = d.name) (f : Bytes → Bytes) (hf : conversion m.datatype d.datatype = some f) :
    ∃ c, ConvertingView.new b d.datatype d = .ok ⟨d.datatype, m, c⟩ ∧
      (∀ i, ConvertingView.get b ⟨d.datatype, m, c⟩ i = answer ((value? ps m.definition i).map f)) ∧
      ∃ xs : List Bytes, (∀ i, xs[i]? = (value? ps m.definition i).map f) ∧ xs.length = ps.length ∧
        Fetches (len b) (ConvertingView.get b ⟨d.datatype, m, c⟩) xs .panic := by
  obtain ⟨c, hnew, hc⟩ : ∃ c, ConvertingView.new b d.datatype d = .ok ⟨d.datatype, m, c⟩ ∧
      ∀ s t : Bytes, s.length = m.size → t.length = d.size → c.run s t = .ok (f s) := by
    unfold ConvertingView.new
    rw [h.layout_eq, byName_of_mem' hl hm hn, assertThat_true (by simp)]
    simp only [bind, Except.bind, expectSome]
    by_cases hty : m.datatype = d.datatype
    · rw [if_pos hty]
      refine ⟨.unit, rfl, ?_⟩
      unfold conversion at hf
      rw [if_pos hty] at hf
      cases hf
      intro s t hs ht
      have h1 : m.size = d.size := congrArg DataType.size hty
      exact copyFromSlice_ok (by omega)
    · rw [if_neg hty]
      obtain ⟨c, h1, h2⟩ := converter_ok (d := m.definition) (d' := { d with datatype := d.datatype }) hn hty hf
      refine ⟨c, ?_, h2.run⟩
      rw [h1]
      rfl
  have hget : ∀ i, ConvertingView.get b ⟨d.datatype, m, c⟩ i = answer ((value? ps m.definition i).map f) := by
    intro i
    unfold ConvertingView.get
    rw [h.getAttributeUnchecked_eq m i _ hm (by simp [zeros])]
    obtain ⟨xs, hx, ha⟩ := column_some hl h hm
    rw [(column_get hx).2 i]
    cases hr : xs[i]? with
    | none => rfl
    | some r => exact hc r _ (ha.getElem hr) (by simp [zeros]; rfl)
  refine ⟨_, hnew, hget, ?_⟩
  obtain ⟨xs, hx, ha⟩ := column_some hl h hm
  obtain ⟨hx1, hx2⟩ := column_get hx
  refine ⟨xs.map f, fun i => by rw [List.getElem?_map, hx2], by rw [List.length_map, hx1], ?_⟩
  constructor
  · rw [h.len_eq, List.length_map, hx1]
  · intro i x hi
    rw [hget, hx2, ← List.getElem?_map, hi]
    rfl
  · intro i hi
    rw [hget, hx2, ← List.getElem?_map, List.getElem?_eq_none (by omega)]
    rfl

/-- C64: the converting view of attribute `d` over a buffer that stores an attribute of the same name
    with a convertible type reads, at every index, the stored value converted; past the end it panics.
    Its iterator follows the `Iterator` contract over the converted values for all sequences of calls. -/
theorem C64_converted_values {β : Type} [BorrowedBuffer β] (b : β) (l : PointLayout) (hl : Solid l)
    (ps : List Point) (h : ShowsPoints b l ps) (d : AttrDef) (m : Member) (hm : m ∈ l.attributes)
    (hn : m.name = d.name) (f : Bytes → Bytes) (hf : conversion m.datatype d.datatype = some f) :
    ∃ v, ConvertingView.new b d.datatype d = .ok v ∧
      (∀ i, ConvertingView.get b v i = answer ((value? ps m.definition i).map f)) ∧
      ∃ xs : List Bytes, (∀ i, xs[i]? = (value? ps m.definition i).map f) ∧ xs.length = ps.length ∧
        ∀ cs, ConvertingView.iter b v cs = .ok (results cs xs) := by
  obtain ⟨c, h1, h2, xs, h3, h4, hF⟩ := converting_view b l hl ps h d m hm hn f hf
  refine ⟨_, h1, h2, xs, h3, h4, fun cs => ?_⟩
  have := runIter_default hF cs 0 (Nat.zero_le _)
  simpa [ConvertingView.iter] using this

/-- C64: two such views are equal exactly when the attributes are stored in the same way, there are as many
    points, and the converted values are equal one by one. -/
theorem C64_views_equal {β γ : Type} [BorrowedBuffer β] [BorrowedBuffer γ] (b : β) (c : γ) (l l' : PointLayout)
    (hl : Solid l) (hl' : Solid l') (ps qs : List Point) (hb : ShowsPoints b l ps) (hc : ShowsPoints c l' qs)
    (d : AttrDef) (m m' : Member) (hm : m ∈ l.attributes) (hm' : m' ∈ l'.attributes) (hn : m.name = d.name)
    (hn' : m'.name = d.name) (f f' : Bytes → Bytes) (hf : conversion m.datatype d.datatype = some f)
    (hf' : conversion m'.datatype d.datatype = some f') (teq : Bytes → Bytes → Bool) :
    ∃ v w, ConvertingView.new b d.datatype d = .ok v ∧ ConvertingView.new c d.datatype d = .ok w ∧
      ∃ xs ys : List Bytes, (∀ i, xs[i]? = (value? ps m.definition i).map f) ∧
        (∀ i, ys[i]? = (value? qs m'.definition i).map f') ∧ xs.length = ps.length ∧ ys.length = qs.length ∧
        ConvertingView.eq b v c w teq = .ok (decide (m.datatype = m'.datatype) && decide (xs.length = ys.length) &&
          (List.zipWith teq xs ys).all id) := by
  obtain ⟨k, h1, _, xs, h3, h4, hF⟩ := converting_view b l hl ps hb d m hm hn f hf
  obtain ⟨k', g1, _, ys, g3, g4, hG⟩ := converting_view c l' hl' qs hc d m' hm' hn' f' hf'
  refine ⟨_, _, h1, g1, xs, ys, h3, g3, h4, g4, ?_⟩
  unfold ConvertingView.eq
  rw [hF.len_eq, hG.len_eq]
  have hdef : m.definition = m'.definition ↔ m.datatype = m'.datatype := by
    constructor
    · intro e
      exact congrArg AttrDef.datatype e
    · intro e
      have e1 : m.definition.name = m'.definition.name := hn.trans hn'.symm
      have e2 : m.definition.datatype = m'.definition.datatype := e
      revert e1 e2
      cases m.definition
      cases m'.definition
      simp only
      rintro rfl rfl
      rfl
  by_cases hd : m.datatype = m'.datatype
  · by_cases hlen : xs.length = ys.length
    · rw [if_pos ⟨hlen, hdef.2 hd⟩, decide_eq_true hlen, decide_eq_true hd, Bool.true_and, Bool.true_and]
      exact allIn_zip hF hG hlen teq
    · rw [if_neg (fun h => hlen h.1), decide_eq_false hlen, decide_eq_true hd]
      rfl
  · rw [if_neg (fun h => hd (hdef.1 h.2)), decide_eq_false hd]
    rfl

/-- C64: the view is refused, with a panic, when `T` is not the type of the requested attribute, when the
    buffer has no attribute of that name, and when its type cannot be converted. (In the last case the
    signature promises an `Err`.) -/
theorem C64_rejects {β : Type} [BorrowedBuffer β] (b : β) (l : PointLayout) (hl : Solid l)
    (ps : List Point) (h : ShowsPoints b l ps) (dt : DataType) (d : AttrDef)
    (hno : dt ≠ d.datatype ∨ (∀ m ∈ l.attributes, m.name ≠ d.name) ∨
      ∃ m ∈ l.attributes, m.name = d.name ∧ conversion m.datatype d.datatype = none) :
    ConvertingView.new b dt d = .error .panic := by
  unfold ConvertingView.new
  by_cases hdt : dt = d.datatype
  · rw [assertThat_true (decide_eq_true hdt), h.layout_eq]
    simp only [bind, Except.bind]
    rcases hno with hno | hno | ⟨m, hm, hn, hcv⟩
    · exact absurd hdt hno
    · cases hf : l.getAttributeByName d.name with
      | none => rfl
      | some m =>
        unfold PointLayout.getAttributeByName at hf
        exact absurd (by simpa using List.find?_some hf) (hno m (List.mem_of_find?_eq_some hf))
    · rw [byName_of_mem' hl hm hn]
      simp only [expectSome]
      have hty : m.datatype ≠ d.datatype := by
        intro hty
        unfold conversion at hcv
        rw [if_pos hty] at hcv
        cases hcv
      rw [hdt, if_neg hty, converter_panic (d := m.definition) (d' := { d with datatype := d.datatype }) hn hcv]
  · rw [assertThat_false (decide_eq_false hdt)]
    rfl

/-! ## C65 -/

/-- Every point's value of attribute `d` is replaced by the function of its index and old value. -/
def transformed (d : AttrDef) (f : Nat → Bytes → Bytes) (ps : List Point) : List Point :=
  ps.mapIdx fun i p => match p.get d with
    | some v => p.set d (f i v)
    | none => p

theorem transform_records {β : Type} [OwningBuffer β] [HoldsRecords β] {l : PointLayout} (hl : Solid l)
    {rs : List Bytes} (h : AllLen l.size rs) {m : Member} (hm : m ∈ l.attributes) (f : Nat → Bytes → Bytes)
    (hf : ∀ i v, v.length = m.size → (f i v).length = m.size) :
    ∃ rs', AllLen l.size rs' ∧
      transformAttribute (HoldsRecords.ofRecords l rs : β) m.datatype m.definition f =
        .ok (HoldsRecords.ofRecords l rs') ∧
      rs'.map (pointOf l) = transformed m.definition f (rs.map (pointOf l)) := by
  let F : Nat → Bytes → Bytes := fun i r => overwrite r m.offset (f i (window r m.offset m.size))
  have hF : ∀ i r, r.length = l.size → (F i r).length = l.size := by
    intro i r hr
    have hi := hl.inside m hm
    have : (f i (window r m.offset m.size)).length = m.size := hf _ _ (length_window (by omega))
    show (overwrite r m.offset _).length = _
    rw [length_overwrite (by omega), hr]
  have hshow := HoldsRecords.shows (β := β) hl h
  have hloop := modify_loop (HoldsRecords.ofRecords l : List Bytes → β) (AllLen l.size) F
    (body := transformAttributeStep ⟨m.datatype, m⟩ f) 0 rs.length 0 rs h (by
      intro k ys hk hy hlen
      rw [Nat.zero_add]
      have hky : k < ys.length := by omega
      have hr : ys[k]? = some ys[k] := List.getElem?_eq_getElem hky
      have hrl : (ys[k]).length = l.size := hy.getElem hr
      have hi := hl.inside m hm
      have hw : (window ys[k] m.offset m.size).length = m.size := length_window (by omega)
      have hfw := hf k _ hw
      constructor
      · unfold transformAttributeStep
        have hread : AttributeView.get (HoldsRecords.ofRecords l ys : β) ⟨m.datatype, m⟩ k =
            .ok (window ys[k] m.offset m.size) := by
          refine Eq.trans ((HoldsRecords.shows (β := β) hl hy).getAttributeUnchecked_eq m k _ hm
            (by simp [zeros]; rfl)) ?_
          simp only [value?, List.getElem?_map, hr, Option.map_some, bind, Option.bind, pointOf_get,
            find_def_mem hl hm, answer]
        rw [hread]
        simp only [bind, Except.bind]
        have hs := HoldsRecords.step_eq (β := β) hl hy (.setAttribute m.definition k (f k (window ys[k] m.offset m.size)))
          hfw
        unfold Op.stepRecords at hs
        rw [if_pos ⟨List.mem_map_of_mem hm, hky⟩] at hs
        refine Eq.trans hs ?_
        simp only [Except.map, Op.onRecords, find_def_mem hl hm]
        congr 2
        rw [List.modify_eq_set_getElem?, List.modify_eq_set_getElem?, hr]
        rfl
      · intro r hrm
        rw [List.modify_eq_set_getElem?, hr] at hrm
        exact (hy.set (hF k _ hrl) k) r hrm)
  refine ⟨rs.mapIdx F, ?_, ?_, ?_⟩
  · intro r hr
    rw [List.mem_mapIdx] at hr
    obtain ⟨i, hi, rfl⟩ := hr
    exact hF i _ (h _ (List.getElem_mem hi))
  · unfold transformAttribute
    dsimp only
    have hnew : AttributeView.new (HoldsRecords.ofRecords l rs : β) m.datatype m.definition = .ok ⟨m.datatype, m⟩ :=
      (C62_attribute_view_checks _ l hl _ hshow m.datatype m.definition).1 rfl m hm rfl
    rw [hnew]
    simp only [bind, Except.bind]
    have hn : len (HoldsRecords.ofRecords l rs : β) = rs.length := by rw [hshow.len_eq, List.length_map]
    rw [hn, List.range_eq_range']
    refine Eq.trans hloop ?_
    congr 2
    apply List.ext_getElem (by simp)
    intro i h1 h2
    simp at h1
    simp [h1]
  · unfold transformed
    apply List.ext_getElem (by simp)
    intro i h1 h2
    simp at h1
    simp only [List.getElem_map, List.getElem_mapIdx, pointOf_get, find_def_mem hl hm, Option.map_some]
    have hi := hl.inside m hm
    have hr : (rs[i]).length = l.size := h _ (List.getElem_mem h1)
    exact pointOf_overwrite hl hr hm (hf _ _ (length_window (by omega)))

/-- C65 for a `VectorBuffer`: `transform_attribute` replaces the attribute of every point by the function
    of its index and old value, and changes nothing else. -/
theorem C65_transform_vector (b : VectorBuffer) (hl : Solid b.layout) (hb : VectorConsistent b)
    (ps : List Point) (h : ShowsPoints b b.layout ps) (m : Member) (hm : m ∈ b.layout.attributes)
    (f : Nat → Bytes → Bytes) (hf : ∀ i v, v.length = m.size → (f i v).length = m.size) :
    ∃ c, transformAttribute b m.datatype m.definition f = .ok c ∧
      ShowsPoints c b.layout (transformed m.definition f ps) := by
  obtain ⟨rs, h1, h2⟩ := vector_shows b hb
  generalize b.layout = l at *
  subst h2
  have := showsPoints_unique h (interleaved_shows_points hl h1)
  subst this
  obtain ⟨rs', e1, e2, e3⟩ := transform_records (β := VectorBuffer) hl h1 hm f hf
  rw [← e3]
  exact ⟨_, e2, interleaved_shows_points hl e1⟩

/-- C65 for a `HashMapBuffer`. -/
theorem C65_transform_hashmap (b : HashMapBuffer) (hl : Solid b.layout) (hb : HashMapConsistent b)
    (ps : List Point) (h : ShowsPoints b b.layout ps) (m : Member) (hm : m ∈ b.layout.attributes)
    (f : Nat → Bytes → Bytes) (hf : ∀ i v, v.length = m.size → (f i v).length = m.size) :
    ∃ c, transformAttribute b m.datatype m.definition f = .ok c ∧
      ShowsPoints c b.layout (transformed m.definition f ps) := by
  obtain ⟨rs, h1, h2⟩ := hashmap_shows b hl hb
  generalize b.layout = l at *
  subst h2
  have := showsPoints_unique h (HashMapBuffer.shows_points hl h1)
  subst this
  obtain ⟨rs', e1, e2, e3⟩ := transform_records (β := HashMapBuffer) hl h1 hm f hf
  rw [← e3]
  exact ⟨_, e2, HashMapBuffer.shows_points hl e1⟩

/-- C65: a missing attribute or a wrong type is refused with a panic. -/
theorem C65_rejects {β : Type} [BorrowedMutBuffer β] (b : β) (l : PointLayout) (hl : Solid l)
    (ps : List Point) (h : ShowsPoints b l ps) (dt : DataType) (d : AttrDef)
    (hno : ¬ (dt = d.datatype ∧ d ∈ l.attributes.map Member.definition)) (f : Nat → Bytes → Bytes) :
    transformAttribute b dt d f = .error .panic := by
  unfold transformAttribute
  dsimp only
  have := (C62_attribute_view_checks b l hl ps h dt d).2 hno
  rw [this]
  rfl

example :
    (ConvertingView.new (⟨[1, 9, 2, 3, 4, 9, 5, 0, 1, 2, 7, 0], exLayout, 2⟩ : VectorBuffer) .u32 ⟨"b", .u32⟩).map
      (fun v => ConvertingView.get (⟨[1, 9, 2, 3, 4, 9, 5, 0, 1, 2, 7, 0], exLayout, 2⟩ : VectorBuffer) v 1) =
        .ok (.ok [1, 2, 0, 0]) ∧
    transformAttribute (⟨[1, 9, 2, 3, 4, 9, 5, 0, 1, 2, 7, 0], exLayout, 2⟩ : VectorBuffer) .u16 ⟨"b", .u16⟩
      (fun i v => BitVec.ofNat 8 i :: v.drop 1) =
        .ok ⟨[1, 9, 0, 3, 4, 9, 5, 0, 1, 2, 7, 0], exLayout, 2⟩ := by
  refine ⟨by decide, by decide⟩

/-- Two buffers with the same value of `b`, once as `u16` and once as `u8`: as `u32` the views show the same
    value and are still not equal. -/
example :
    let x : VectorBuffer := ⟨[1, 9, 2, 0, 4, 9], exLayout, 1⟩
    let y : VectorBuffer := ⟨[2, 0, 0, 0, 0, 0, 0, 0, 0, 0, 0, 0], exTarget, 1⟩
    let show32 := fun b : VectorBuffer => (ConvertingView.new b .u32 ⟨"b", .u32⟩).bind fun v => ConvertingView.get b v 0
    show32 x = .ok [2, 0, 0, 0] ∧ show32 y = .ok [2, 0, 0, 0] ∧
    ((ConvertingView.new x .u32 ⟨"b", .u32⟩).bind fun v => (ConvertingView.new y .u32 ⟨"b", .u32⟩).bind fun w =>
      ConvertingView.eq x v y w (· == ·)) = .ok false ∧
    ((ConvertingView.new x .u32 ⟨"b", .u32⟩).bind fun v => ConvertingView.eq x v x v (· == ·)) = .ok true := by
  refine ⟨by decide, by decide, by decide, by decide⟩

end Pasture.Props
