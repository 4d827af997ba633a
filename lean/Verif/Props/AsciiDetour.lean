import Verif.Spec.AsciiDetour
import Verif.Props.Ascii
import Verif.Props.TwoSteps

/-!
# C117: reading an ASCII file into a layout, and converting what was read in its own layout
-/

namespace Pasture.Props

open Spec Spec.Ascii Pasture.Ascii BorrowedBuffer Las

/-! ## Records of the same line in two layouts -/

theorem window_byte (b : Bytes) (o n k : Nat) (hk : k < n) : (window b o n)[k]? = (window b (o + k) 1)[0]? := by
  unfold window
  rw [List.getElem?_take_of_lt hk, List.getElem?_take_of_lt (by omega), List.getElem?_drop, List.getElem?_drop, Nat.add_zero]

/-- A byte inside a part of an attribute. -/
theorem part_byte (b : Bytes) (o s n k : Nat) (h1 : s ≤ k) (h2 : k < s + n) :
    (window b (o + k) 1)[0]? = (window b (o + s) n)[k - s]? := by
  rw [window_byte b (o + s) n (k - s) (by omega), show o + s + (k - s) = o + k by omega]

/-- What is read of an attribute does not depend on the layout. -/
theorem record_agree {l l' : PointLayout} {ts : List PointDataType} {cols : List (List Char)} {r r' : Bytes}
    (hg : (ts.map columnOf).length ≤ cols.length) (h : LineRecord l ts cols r) (h' : LineRecord l' ts cols r')
    {m m' : Member} (hm : m ∈ l.attributes) (hm' : m' ∈ l'.attributes) (hd : m'.definition = m.definition) :
    window r m.offset m.size = window r' m'.offset m'.size := by
  have hsz : m'.size = m.size := by
    show m'.definition.size = m.definition.size
    rw [hd]
  rw [hsz]
  apply List.ext_getElem?
  intro k
  by_cases hk : k < m.size
  · rw [window_byte _ _ _ _ hk, window_byte _ _ _ _ hk]
    by_cases hcol : ∃ c, some c ∈ ts.map columnOf ∧ c.attr = m.definition ∧ c.start ≤ k ∧ k < c.start + c.type.size
    · obtain ⟨c, hc, ha, hk1, hk2⟩ := hcol
      obtain ⟨i, hi⟩ := List.mem_iff_getElem?.1 hc
      have isC : ∀ {j : Nat} {c' : Column} {s : List Char},
          ((ts.map columnOf).zip cols)[j]? = some (some c', s) → IsColumn c' := by
        intro j c' s hj
        have := (List.of_mem_zip (List.mem_of_getElem? hj)).1
        obtain ⟨t, _, ht⟩ := List.mem_map.1 this
        exact ⟨t, ht⟩
      have hz : ∃ s, ((ts.map columnOf).zip cols)[i]? = some (some c, s) := by
        have hlt := (List.getElem?_eq_some_iff.1 hi).1
        refine ⟨cols[i]'(by omega), ?_⟩
        rw [List.getElem?_zip_eq_some]
        exact ⟨hi, List.getElem?_eq_getElem _⟩
      have hcc : IsColumn c := isC hz.choose_spec
      obtain ⟨j, ⟨s, hj⟩, _, hlast⟩ := last_index
        (fun j => ∃ s, ((ts.map columnOf).zip cols)[j]? = some (some c, s)) _
        (fun j ⟨s, hj⟩ => (List.getElem?_eq_some_iff.1 hj).1) _ i (Nat.le_refl _) hz
      have hl : ∀ (j' : Nat) c' s', j < j' → ((ts.map columnOf).zip cols)[j']? = some (some c', s') →
          ¬ (c'.attr = c.attr ∧ c'.component = c.component) := by
        intro j' c' s' hlt hj' he
        obtain rfl := hcc.eq_of (isC hj') he
        exact hlast j' hlt ⟨s', hj'⟩
      obtain ⟨n, e1, e2⟩ := h.2.1 j c s m hj hm ha.symm hl
      obtain ⟨n', e1', e2'⟩ := h'.2.1 j c s m' hj hm' (hd.trans ha.symm) hl
      rw [e1] at e1'
      cases e1'
      rw [part_byte _ _ _ _ _ hk1 hk2, part_byte _ _ _ _ _ hk1 hk2, e2, e2']
    · have hno : ∀ c, some c ∈ ts.map columnOf → c.attr = m.definition → ¬ (c.start ≤ k ∧ k < c.start + c.type.size) :=
        fun c h1 h2 h3 => hcol ⟨c, h1, h2, h3⟩
      rw [h.2.2 m hm k hk hno, h'.2.2 m' hm' k (by omega) (fun c h1 h2 => hno c h1 (h2.trans hd))]
  · unfold window
    rw [List.getElem?_eq_none (by rw [List.length_take]; omega), List.getElem?_eq_none (by rw [List.length_take]; omega)]

/-- Attributes that the format does not describe are zero. -/
theorem record_blank {l : PointLayout} (hl : Solid l) {ts : List PointDataType} {cols : List (List Char)} {r : Bytes}
    (h : LineRecord l ts cols r) {m : Member} (hm : m ∈ l.attributes)
    (hno : ∀ c, some c ∈ ts.map columnOf → c.attr ≠ m.definition) :
    window r m.offset m.size = List.replicate m.size 0 := by
  have hin := hl.inside m hm
  apply List.ext_getElem?
  intro k
  by_cases hk : k < m.size
  · rw [window_byte _ _ _ _ hk, h.2.2 m hm k hk (fun c h1 h2 => absurd h2 (hno c h1)), List.getElem?_replicate, if_pos hk]
    rfl
  · unfold window
    rw [List.getElem?_eq_none (by rw [List.length_take]; omega), List.getElem?_eq_none (by rw [List.length_replicate]; omega)]

/-- Converting the record in the one layout gives the record in the other. -/
theorem record_converted {l target : PointLayout} (hl : Solid l) (ht : Solid target) (hs : SameTypes l target)
    {ts : List PointDataType} {cols : List (List Char)} {r r' : Bytes}
    (hcols : ∀ c, some c ∈ ts.map columnOf → c.attr ∈ l.attributes.map Member.definition)
    (hg : (ts.map columnOf).length ≤ cols.length) (h : LineRecord l ts cols r) (h' : LineRecord target ts cols r') :
    (defaultPlan l).apply (pointOf l r) (zeroPoint target) = pointOf target r' := by
  unfold Plan.apply zeroPoint
  rw [List.map_map]
  conv_rhs => unfold pointOf
  apply List.map_congr_left
  intro t htm
  dsimp only [Function.comp]
  congr 1
  by_cases hx : named l t.name
  · obtain ⟨m, hm, hname⟩ := hx
    have he := hs m hm t htm hname.symm
    rw [defaultPlan_of_name hl hm hname.symm, show t.datatype = m.datatype from congrArg AttrDef.datatype he,
      conversion_to_same]
    dsimp only [Option.map_some]
    rw [pointOf_get, find_def_mem hl hm]
    dsimp only [Option.map_some, id]
    exact record_agree hg h h' hm htm he
  · rw [defaultPlan_unnamed hx]
    dsimp only
    refine (record_blank ht h' htm fun c hc he => hx ?_).symm
    obtain ⟨m, hm, hmd⟩ := List.mem_map.1 (hcols c hc)
    exact ⟨m, hm, congrArg AttrDef.name (hmd.trans he)⟩

/-- The same for records of zeros. -/
theorem zeros_converted {l target : PointLayout} (hl : Solid l) (ht : Solid target) (hs : SameTypes l target) :
    (defaultPlan l).apply (pointOf l (List.replicate l.size 0)) (zeroPoint target) =
      pointOf target (List.replicate target.size 0) :=
  record_converted (ts := []) (cols := []) hl ht hs (by simp) (by simp)
    ⟨by simp, fun i c s m hi => by simp at hi, blank_zeros hl []⟩ ⟨by simp, fun i c s m hi => by simp at hi, blank_zeros ht []⟩

/-! ## Reading into new buffers -/

section
variable {β : Type} [OwningBuffer β] [AsMemoryMut β] [MakeBufferFromLayout β] [MakesRecords β]
variable {format d : List Char} {r : RawAsciiReader} {ls : List (List Char)}

/-- The records of a new buffer. -/
theorem new_records (hr : ReaderAt format d r ls) {l : PointLayout} (hl : Solid l) {count : Nat}
    (hgood : ∀ line ∈ ls.take count, ReadableLine format d line) :
    ∃ r' news, PointReader.readInto r (OwningBuffer.resize (MakeBufferFromLayout.newFromLayout l : β) count) count =
        .ok (count, HoldsRecords.ofRecords l (news ++ List.replicate (count - ls.length) (List.replicate l.size 0)), r') ∧
      AllLen l.size (news ++ List.replicate (count - ls.length) (List.replicate l.size 0)) ∧
      List.Forall₂ (fun line rec => LineRecord l r.parseLayout (split line r.delimiter) rec) (ls.take count) news := by
  obtain ⟨_, hm⟩ := format_types hr.format_eq
  have hd := hr.delimiter_eq
  have hz : AllLen l.size (List.replicate count (List.replicate l.size (0 : Byte))) := AllLen.replicate (by simp) _
  obtain ⟨text', news, h1, h2, h3⟩ := readLoop_ok (β := β) hl r.delimiter r.parseLayout count 0 (zeros l.size) r.rest ls _
    hr.lines hz (by simp) (by simp [zeros]) (blank_zeros hl _) (fun line hline => by
      rw [hd]; exact (readable_iff hm d line).2 (hgood line hline))
  have hlen : news.length = min count ls.length := by
    have := h3.length_eq
    rw [List.length_take] at this
    omega
  have hover : overwrite (List.replicate count (List.replicate l.size (0 : Byte))) 0 news =
      news ++ List.replicate (count - ls.length) (List.replicate l.size 0) := by
    unfold overwrite
    rw [List.take_zero, List.nil_append, List.drop_replicate, hlen]
    congr 2
    omega
  rw [hover] at h1
  refine ⟨{ r with rest := text' }, news, ?_, ?_, h3⟩
  · rw [new_resized hl]
    have hlay : BorrowedBuffer.layout (HoldsRecords.ofRecords l (List.replicate count (List.replicate l.size 0)) : β) = l :=
      (HoldsRecords.shows hl hz).layout_eq
    show (RawAsciiReader.readLoop _ _ _ _ (UntypedPoint.new (BorrowedBuffer.layout
      (HoldsRecords.ofRecords l (List.replicate count (List.replicate l.size 0)) : β))) _ _).bind _ = _
    rw [hlay]
    show (RawAsciiReader.readLoop _ _ _ _ (⟨l, zeros l.size⟩) _ _).bind _ = _
    rw [h1]
    rfl
  · refine AllLen.append (fun x hx => ?_) (AllLen.replicate (by simp) _)
    obtain ⟨line, _, h⟩ := forall₂_right h3 x hx
    exact h.1

/-- The same in the layout of the format. -/
theorem default_records (hr : ReaderAt format d r ls) (hl : Solid r.layout) {count : Nat}
    (hgood : ∀ line ∈ ls.take count, ReadableLine format d line) :
    ∃ r' news, readPoints β r count = .ok (HoldsRecords.ofRecords r.layout
        (news ++ List.replicate (count - ls.length) (List.replicate r.layout.size 0)), r') ∧
      AllLen r.layout.size (news ++ List.replicate (count - ls.length) (List.replicate r.layout.size 0)) ∧
      List.Forall₂ (fun line rec => LineRecord r.layout r.parseLayout (split line r.delimiter) rec) (ls.take count) news := by
  obtain ⟨r', news, h1, h2, h3⟩ := new_records (β := β) hr hl hgood
  have hlen : (news ++ List.replicate (count - ls.length) (List.replicate r.layout.size (0 : Byte))).length = count := by
    have := h3.length_eq
    rw [List.length_take] at this
    rw [List.length_append, List.length_replicate]
    omega
  refine ⟨r', news, ?_, h2, h3⟩
  unfold readPoints
  dsimp only
  show (PointReader.readInto r (OwningBuffer.resize (MakeBufferFromLayout.newFromLayout r.layout : β) count) count).bind _ = _
  rw [h1]
  show Except.ok (OwningBuffer.resize _ count, r') = _
  rw [resize_records hl h2]
  congr 3
  unfold resized
  rw [hlen, Nat.sub_self, List.take_of_length_le (by omega)]
  simp

/-- Errors. -/
theorem new_refused (hr : ReaderAt format d r ls) {l : PointLayout} (hl : Solid l) {count : Nat}
    (hbad : ∃ line ∈ ls.take count, ¬ ReadableLine format d line) :
    PointReader.readInto r (OwningBuffer.resize (MakeBufferFromLayout.newFromLayout l : β) count) count =
      .error .err := by
  rw [new_resized hl]
  exact read_err hr hl (AllLen.replicate (by simp) _) (by simp) hbad

theorem default_refused (hr : ReaderAt format d r ls) (hl : Solid r.layout) {count : Nat}
    (hbad : ∃ line ∈ ls.take count, ¬ ReadableLine format d line) : readPoints β r count = .error .err := by
  have h := new_refused (β := β) hr hl hbad
  unfold readPoints
  dsimp only
  show (PointReader.readInto r (OwningBuffer.resize (MakeBufferFromLayout.newFromLayout r.layout : β) count) count).bind _ = _
  rw [h]
  rfl

end

/-- All records. -/
theorem records_converted {l target : PointLayout} (hl : Solid l) (ht : Solid target) (hs : SameTypes l target)
    {ts : List PointDataType} {d : List Char}
    (hcols : ∀ c, some c ∈ ts.map columnOf → c.attr ∈ l.attributes.map Member.definition) {lines : List (List Char)}
    (hg : ∀ line ∈ lines, (ts.map columnOf).length ≤ (split line d).length) {news news' : List Bytes}
    (h : List.Forall₂ (fun line rec => LineRecord l ts (split line d) rec) lines news)
    (h' : List.Forall₂ (fun line rec => LineRecord target ts (split line d) rec) lines news') (n : Nat) :
    ((news ++ List.replicate n (List.replicate l.size 0)).map (pointOf l)).map
        (fun p => (defaultPlan l).apply p (zeroPoint target)) =
      (news' ++ List.replicate n (List.replicate target.size 0)).map (pointOf target) := by
  induction h generalizing news' with
  | nil =>
    cases h'
    rw [List.nil_append, List.nil_append, List.map_replicate, List.map_replicate, List.map_replicate,
      zeros_converted hl ht hs]
  | cons h1 _ ih =>
    cases h' with
    | cons h1' h2' =>
      rw [List.cons_append, List.cons_append, List.map_cons, List.map_cons, List.map_cons, ih (fun x hx => hg x (List.mem_cons_of_mem _ hx)) h2',
        record_converted hl ht hs hcols (hg _ List.mem_cons_self) h1 h1']

section
variable {format d : List Char} {r : RawAsciiReader} {ls : List (List Char)} {target : PointLayout}

/-- **C117 in part**: wherever a reader stands in a text, if the attributes that the format and `target` share have the same
    types, converting points that were read gives what is read directly, for all kinds of buffers. That includes the surplus
    points if there are fewer lines (see `C52_surplus`). If a line cannot be read, both ways fail. Missing: attributes with other types (`C117_violated`). -/
theorem C117_partial (hr : ReaderAt format d r ls) (hl : Solid (PointReader.defaultLayout r))
    (hd : ∀ a, a ∈ (PointReader.defaultLayout r).attributes.map Member.definition ↔ Described format a)
    (ht : Solid target) (hs : SameTypes (PointReader.defaultLayout r) target) (count : Nat) :
    ((∀ line ∈ ls.take count, ReadableLine format d line) →
      (SameLinesByDetour r target count VectorBuffer VectorBuffer VectorBuffer ∧
        SameLinesByDetour r target count VectorBuffer HashMapBuffer VectorBuffer ∧
        SameLinesByDetour r target count HashMapBuffer VectorBuffer VectorBuffer ∧
        SameLinesByDetour r target count HashMapBuffer HashMapBuffer VectorBuffer) ∧
      (SameLinesByDetour r target count VectorBuffer VectorBuffer HashMapBuffer ∧
        SameLinesByDetour r target count VectorBuffer HashMapBuffer HashMapBuffer ∧
        SameLinesByDetour r target count HashMapBuffer VectorBuffer HashMapBuffer ∧
        SameLinesByDetour r target count HashMapBuffer HashMapBuffer HashMapBuffer)) ∧
    ((∃ line ∈ ls.take count, ¬ ReadableLine format d line) →
      BothRefuse r target count VectorBuffer VectorBuffer ∧ BothRefuse r target count VectorBuffer HashMapBuffer ∧
      BothRefuse r target count HashMapBuffer VectorBuffer ∧ BothRefuse r target count HashMapBuffer HashMapBuffer) := by
  change Solid r.layout at hl
  change SameTypes r.layout target at hs
  change ∀ a, a ∈ r.layout.attributes.map Member.definition ↔ _ at hd
  refine ⟨fun hgood => ?_, fun hbad => ?_⟩
  · obtain ⟨_, hm⟩ := format_types hr.format_eq
    have hcols : ∀ c, some c ∈ r.parseLayout.map columnOf → c.attr ∈ r.layout.attributes.map Member.definition := by
      intro c hc
      obtain ⟨t, h1, h2⟩ := List.mem_map.1 hc
      exact (hd _).2 ((described_iff hm _).2 ⟨t, h1, c, h2, rfl⟩)
    have hg : ∀ line ∈ ls.take count, (r.parseLayout.map columnOf).length ≤ (split line r.delimiter).length := by
      intro line hline
      rw [hr.delimiter_eq]
      exact ((readable_iff hm d line).2 (hgood line hline)).1
    have hp : ∀ t ∈ target.attributes, named r.layout t.name → (defaultPlan r.layout t.definition).isSome := by
      rintro t htm ⟨m, hm, hn⟩
      rw [defaultPlan_of_name hl hm hn.symm, show t.datatype = m.datatype from
        congrArg AttrDef.datatype (hs m hm t htm hn.symm), conversion_to_same]
      rfl
    obtain ⟨r₂, news, d1, d2, d3⟩ := new_records (β := VectorBuffer) hr ht hgood
    obtain ⟨r₂', news', d1', d2', d3'⟩ := new_records (β := HashMapBuffer) hr ht hgood
    obtain ⟨r₁, recs, m1, m2, m3⟩ := default_records (β := VectorBuffer) hr hl hgood
    obtain ⟨r₁', recs', k1, k2, k3⟩ := default_records (β := HashMapBuffer) hr hl hgood
    obtain ⟨⟨c1, e1, s1⟩, c2, e2, s2⟩ := at_once _ r.layout target hl ht _
      (vector_middle hl (RecordBuffer.consistent (β := VectorBuffer) hl m2) (HoldsRecords.shows (β := VectorBuffer) hl m2)) hp
    obtain ⟨⟨c3, e3, s3⟩, c4, e4, s4⟩ := at_once _ r.layout target hl ht _
      (hashmap_middle hl (RecordBuffer.consistent (β := HashMapBuffer) hl k2) (HoldsRecords.shows (β := HashMapBuffer) hl k2)) hp
    have w := HoldsRecords.shows (β := VectorBuffer) ht d2
    have w' := HoldsRecords.shows (β := HashMapBuffer) ht d2'
    have q1 := records_converted hl ht hs hcols hg m3 d3 (count - ls.length)
    have q2 := records_converted hl ht hs hcols hg k3 d3 (count - ls.length)
    have q1' := records_converted hl ht hs hcols hg m3 d3' (count - ls.length)
    have q2' := records_converted hl ht hs hcols hg k3 d3' (count - ls.length)
    have n1 : ((news ++ List.replicate (count - ls.length) (List.replicate target.size 0)).map (pointOf target)).length =
        count := by
      have := d3.length_eq
      rw [List.length_take] at this
      rw [List.length_map, List.length_append, List.length_replicate]
      omega
    have n2 : ((news' ++ List.replicate (count - ls.length) (List.replicate target.size 0)).map (pointOf target)).length =
        count := by
      have := d3'.length_eq
      rw [List.length_take] at this
      rw [List.length_map, List.length_append, List.length_replicate]
      omega
    exact ⟨⟨⟨_, r₁, c1, _, r₂, _, m1, e1, d1, n1, q1 ▸ s1.points, w⟩, ⟨_, r₁, c2, _, r₂, _, m1, e2, d1, n1, q1 ▸ s2.points, w⟩,
        ⟨_, r₁', c3, _, r₂, _, k1, e3, d1, n1, q2 ▸ s3.points, w⟩, ⟨_, r₁', c4, _, r₂, _, k1, e4, d1, n1, q2 ▸ s4.points, w⟩⟩,
      ⟨_, r₁, c1, _, r₂', _, m1, e1, d1', n2, q1' ▸ s1.points, w'⟩, ⟨_, r₁, c2, _, r₂', _, m1, e2, d1', n2, q1' ▸ s2.points, w'⟩,
        ⟨_, r₁', c3, _, r₂', _, k1, e3, d1', n2, q2' ▸ s3.points, w'⟩,
        ⟨_, r₁', c4, _, r₂', _, k1, e4, d1', n2, q2' ▸ s4.points, w'⟩⟩
  · have a := default_refused (β := VectorBuffer) hr hl hbad
    have b := default_refused (β := HashMapBuffer) hr hl hbad
    have a' := new_refused (β := VectorBuffer) hr ht hbad
    have b' := new_refused (β := HashMapBuffer) hr ht hbad
    exact ⟨⟨a, a'⟩, ⟨a, b'⟩, ⟨b, a'⟩, b, b'⟩

end

/-! ## The full claim is false -/

/-- Intensities with 32 bits. -/
def wideIntensity : PointLayout := ⟨[⟨⟨"Intensity", .u32⟩, 0⟩], 4, 4⟩

/-- **C117 violated**: a value is dropped if it is read directly into an attribute with another type, although it could be
    converted. -/
theorem C117_violated : ∃ (r : RawAsciiReader) (m c b : VectorBuffer) (r₁ r₂ : RawAsciiReader),
    RawAsciiReader.fromRead id "7\n".toList "i".toList ",".toList = .ok r ∧
    readPoints VectorBuffer r 1 = .ok (m, r₁) ∧
    atOnce VectorBuffer (PointReader.defaultLayout r) wideIntensity m = .ok c ∧
    PointReader.readInto r (OwningBuffer.resize (MakeBufferFromLayout.newFromLayout wideIntensity : VectorBuffer) 1) 1 =
      .ok (1, b, r₂) ∧
    getAttribute c ⟨"Intensity", .u32⟩ 0 (zeros 4) = .ok [7, 0, 0, 0] ∧
    getAttribute b ⟨"Intensity", .u32⟩ 0 (zeros 4) = .ok [0, 0, 0, 0] :=
  ⟨_, _, _, _, _, _, rfl, rfl, rfl, rfl, rfl, rfl⟩

/-! ## The theorem applies -/

/-- The intensity, and an attribute that the format does not have. -/
def taggedIntensity : PointLayout := ⟨[⟨⟨"Tag", .u16⟩, 0⟩, ⟨⟨"Intensity", .u16⟩, 2⟩], 4, 2⟩

example : ∃ r, RawAsciiReader.fromRead id sampleText "xi".toList ",".toList = .ok r ∧
    SameLinesByDetour r taggedIntensity 2 VectorBuffer HashMapBuffer VectorBuffer := by
  obtain ⟨r, h1, h2, h3, h4⟩ := (C50_format_reader (order := id) (fun _ => .refl _) sampleText "xi".toList ",".toList).1
    (by unfold ValidFormat; decide)
  refine ⟨r, h1, ?_⟩
  have hs : SameTypes (PointReader.defaultLayout r) taggedIntensity := by
    cases h1
    unfold SameTypes
    decide +kernel
  exact (((C117_partial (h2 _ sample_lines) (h4 ⟨_, 0, _, rfl, rfl⟩) h3 (target := taggedIntensity) (by decide +kernel) hs
    2).1 sample_readable).1).2.1

end Pasture.Props
