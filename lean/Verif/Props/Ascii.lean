import Verif.Lemmas.AsciiRoundTrip
import Verif.Lemmas.RecordBuffer
import Verif.Lemmas.Solid
import Verif.Model.VectorBuffer

/-!
# C50-C53: the ASCII reader and writer
-/

namespace Pasture.Props

open Spec Spec.Ascii Pasture.Ascii BorrowedBuffer Las

/-! ## C50: format strings -/

theorem alignTo_le (n a : Nat) : alignTo n a ≤ n + a := by
  rcases Nat.eq_zero_or_pos a with rfl | ha
  · simp [alignTo]
  · unfold alignTo
    rw [if_neg (by omega)]
    have := Nat.div_mul_le_self (n + a - 1) a
    omega

/-- A few attributes with distinct names always make a layout. -/
theorem fromAttributes_fits (ds : List AttrDef) (hn : (ds.map AttrDef.name).Nodup)
    (ha : ∀ d ∈ ds, ∃ k ≤ 3, d.datatype.minAlignment = 2 ^ k) (hs : ∀ d ∈ ds, d.size ≤ 24) (hlen : ds.length ≤ 1000) :
    ∃ l, PointLayout.fromAttributes ds = .ok l ∧ l.attributes.map Member.definition = ds := by
  have key : ∀ (ds' : List AttrDef) (s : PointLayout), s.Ordered → (∃ k ≤ 3, s.align = 2 ^ k) →
      (s.attributes.map Member.name ++ ds'.map AttrDef.name).Nodup →
      (∀ d ∈ ds', ∃ k ≤ 3, d.datatype.minAlignment = 2 ^ k) → (∀ d ∈ ds', d.size ≤ 24) →
      s.size + 40 * ds'.length ≤ 2 ^ 62 →
      ∃ l, forLoop ds' s (fun l d => l.addAttribute d .default) = .ok l ∧
        l.attributes.map Member.definition = s.attributes.map Member.definition ++ ds' := by
    intro ds'
    induction ds' with
    | nil => intro s _ _ _ _ _ _; exact ⟨s, rfl, by simp⟩
    | cons d ds' ih =>
      intro s h0 h1 h2 h3 h4 h5
      obtain ⟨k, hk, hk'⟩ := h1
      obtain ⟨j, hj, hj'⟩ := h3 d (by simp)
      have hsz := h4 d (by simp)
      have pk : (2 : Nat) ^ k ≤ 2 ^ 3 := Nat.pow_le_pow_right (by omega) hk
      have pj : (2 : Nat) ^ j ≤ 2 ^ 3 := Nat.pow_le_pow_right (by omega) hj
      have hal : ∃ k ≤ 3, s.newAlign d .default = 2 ^ k := by
        unfold PointLayout.newAlign
        rw [hk', hj']
        rcases Nat.le_total (2 ^ k) (2 ^ j) with h | h
        · exact ⟨j, hj, by dsimp only; omega⟩
        · exact ⟨k, hk, by dsimp only; omega⟩
      have hoff : s.packedOffsetOfNextField ≤ s.size := by
        unfold PointLayout.packedOffsetOfNextField
        cases hl : s.attributes.getLast? with
        | none => exact Nat.zero_le _
        | some m => exact h0.inside m (List.mem_of_getLast? hl)
      have e1 := alignTo_le s.packedOffsetOfNextField (PointLayout.fieldAlign d .default)
      have e2 := alignTo_le (max s.size (alignTo s.packedOffsetOfNextField (PointLayout.fieldAlign d .default) + d.size))
        (s.newAlign d .default)
      have e3 : PointLayout.fieldAlign d .default ≤ 8 := by
        unfold PointLayout.fieldAlign; dsimp only; omega
      have e4 : s.newAlign d .default ≤ 8 := by
        unfold PointLayout.newAlign; dsimp only; omega
      simp only [List.length_cons] at h5
      have hadd : ∃ l', s.addAttribute d .default = .ok l' ∧ l'.size ≤ s.size + 40 ∧
          l'.align = s.newAlign d .default ∧ ∃ o, l'.attributes = s.attributes ++ [⟨d, o⟩] := by
        refine ⟨_, PointLayout.addAttribute_ok.2 ⟨?_, ?_, ?_, rfl⟩, ?_, rfl, _, rfl⟩
        · intro hc
          rw [List.nodup_append] at h2
          exact h2.2.2 _ hc _ (by simp) rfl
        · obtain ⟨k, _, h⟩ := hal
          exact ⟨k, h⟩
        · dsimp only; omega
        · dsimp only; omega
      obtain ⟨l', g1, g2, g3, o, g4⟩ := hadd
      obtain ⟨l, q1, q2⟩ := ih l' (h0.addAttribute g1) (g3 ▸ hal) (by
          rw [g4, List.map_append, List.append_assoc]; exact h2) (fun x hx => h3 x (by simp [hx]))
          (fun x hx => h4 x (by simp [hx])) (by omega)
      refine ⟨l, ?_, ?_⟩
      · rw [forLoop_cons, g1]
        exact q1
      · rw [q2, g4, List.map_append, List.append_assoc]
        rfl
  obtain ⟨l, h1, h2⟩ := key ds .default .default ⟨0, by omega, rfl⟩ (by simpa [PointLayout.default] using hn) ha hs (by
    have : PointLayout.default.size = 0 := rfl
    omega)
  exact ⟨l, h1, by simpa [PointLayout.default] using h2⟩

/-- The attributes literals can describe. -/
def attributeTable : List AttrDef :=
  [Las.position3D, Las.intensity, Las.returnNumber, Las.numberOfReturns, Las.classification, Las.userData, Las.colorRgb,
    Las.gpsTime, Las.pointSourceId, Las.edgeOfFlightLine, Las.scanDirectionFlag, Las.scanAngleRank, Las.nir]

theorem attributes_ok (ts : List PointDataType) :
    ∃ ds, (ts.filter fun t => t ≠ .skip).mapM attributeOf = .ok ds ∧ (∀ d ∈ ds, d ∈ attributeTable) ∧
      ∀ d, d ∈ ds ↔ ∃ t ∈ ts, ∃ c, columnOf t = some c ∧ c.attr = d := by
  induction ts with
  | nil => exact ⟨[], rfl, by simp, by simp⟩
  | cons t ts ih =>
    obtain ⟨ds, h1, h2, h3⟩ := ih
    by_cases ht : t = .skip
    · subst ht
      refine ⟨ds, by simpa using h1, h2, fun d => ?_⟩
      rw [h3]
      simp [columnOf]
    · have : ∃ c, columnOf t = some c ∧ attributeOf t = .ok c.attr ∧ c.attr ∈ attributeTable := by
        cases t <;> first | exact absurd rfl ht | exact ⟨_, rfl, rfl, by decide⟩
      obtain ⟨c, e1, e2, e3⟩ := this
      refine ⟨c.attr :: ds, ?_, ?_, fun d => ?_⟩
      · rw [List.filter_cons, if_pos (by simpa using ht), List.mapM_cons, e2]
        simp only [bind, Except.bind]
        rw [h1]
        rfl
      · intro d hd
        rcases List.mem_cons.1 hd with rfl | hd
        · exact e3
        · exact h2 d hd
      · rw [List.mem_cons, h3]
        constructor
        · rintro (rfl | ⟨t', ht', c', hc', rfl⟩)
          · exact ⟨t, by simp, c, e1, rfl⟩
          · exact ⟨t', by simp [ht'], c', hc', rfl⟩
        · rintro ⟨t', ht', c', hc', rfl⟩
          rcases List.mem_cons.1 ht' with rfl | ht'
          · rw [e1] at hc'
            cases hc'
            exact .inl rfl
          · exact .inr ⟨t', ht', c', hc', rfl⟩

theorem pointLayout_ok {order : List AttrDef → List AttrDef} (ho : ∀ ds, (order ds).Perm ds) (ts : List PointDataType) :
    ∃ l, pointLayout order ts = .ok l ∧
      (∀ d, d ∈ l.attributes.map Member.definition ↔ ∃ t ∈ ts, ∃ c, columnOf t = some c ∧ c.attr = d) ∧
      ((∃ t ∈ ts, t ≠ .skip) → Solid l) := by
  obtain ⟨ds, h1, h2, h3⟩ := attributes_ok ts
  have hp := ho ds.dedup
  have hsub : ∀ d ∈ order ds.dedup, d ∈ attributeTable := fun d hd => h2 d (List.mem_dedup.1 (hp.mem_iff.1 hd))
  have hnd : (order ds.dedup).Nodup := hp.nodup_iff.2 (List.nodup_dedup ds)
  have hlen : (order ds.dedup).length ≤ 13 := (hnd.subperm hsub).length_le
  have hnames : ((order ds.dedup).map AttrDef.name).Nodup := by
    apply List.Nodup.map_on _ hnd
    intro x hx y hy hxy
    exact List.inj_on_of_nodup_map (f := AttrDef.name) (l := attributeTable) (by decide) (hsub x hx) (hsub y hy) hxy
  have htab : ∀ d ∈ attributeTable, (∃ k ≤ 3, d.datatype.minAlignment = 2 ^ k) ∧ d.size ≤ 24 ∧ 0 < d.size := by
    decide
  obtain ⟨l, e1, e2⟩ := fromAttributes_fits (order ds.dedup) hnames (fun d hd => (htab d (hsub d hd)).1)
    (fun d hd => (htab d (hsub d hd)).2.1) (by omega)
  have hmem : ∀ d, d ∈ order ds.dedup ↔ ∃ t ∈ ts, ∃ c, columnOf t = some c ∧ c.attr = d := by
    intro d
    rw [hp.mem_iff, List.mem_dedup, h3]
  refine ⟨l, ?_, ?_, ?_⟩
  · unfold pointLayout
    rw [h1]
    exact e1
  · intro d
    rw [e2, hmem]
  · rintro ⟨t, ht, hne⟩
    refine solid_of_fromAttributes ?_ (fun d hd => (htab d (hsub d hd)).2.2) e1
    intro hc
    have : ∃ c, columnOf t = some c := by
      cases t <;> first | exact absurd rfl hne | exact ⟨_, rfl⟩
    obtain ⟨c, hc'⟩ := this
    have := (hmem c.attr).2 ⟨t, ht, c, hc', rfl⟩
    rw [hc] at this
    cases this

/-- A reader for texts of the format and delimiter; the lines it has not read yet are `ls`. -/
structure ReaderAt (format delimiter : List Char) (r : RawAsciiReader) (ls : List (List Char)) : Prop where
  format_eq : getParseLayout format = .ok r.parseLayout
  delimiter_eq : r.delimiter = delimiter
  lines : Lines r.rest ls

/-- The attributes a format describes. -/
def Described (format : List Char) (d : AttrDef) : Prop := ∃ i c, describes format i = some c ∧ c.attr = d

theorem format_types {format : List Char} {ts : List PointDataType} (h : getParseLayout format = .ok ts) :
    ValidFormat format ∧ format.map meaning = ts.map fun t => some (columnOf t) := by
  by_cases hv : ValidFormat format
  · obtain ⟨ts', h1, h2⟩ := getParseLayout_ok hv
    rw [h] at h1
    cases h1
    exact ⟨hv, h2⟩
  · rw [getParseLayout_err hv] at h
    cases h

theorem described_iff {format : List Char} {ts : List PointDataType}
    (hm : format.map meaning = ts.map fun t => some (columnOf t)) (d : AttrDef) :
    Described format d ↔ ∃ t ∈ ts, ∃ c, columnOf t = some c ∧ c.attr = d := by
  constructor
  · rintro ⟨i, c, h1, h2⟩
    rw [describes_eq hm] at h1
    obtain ⟨t, h3, h4⟩ := Option.bind_eq_some_iff.1 h1
    exact ⟨t, List.mem_of_getElem? h3, c, h4, h2⟩
  · rintro ⟨t, ht, c, h4, h2⟩
    obtain ⟨i, hi⟩ := List.getElem?_of_mem ht
    exact ⟨i, c, by rw [describes_eq hm, hi]; exact h4, h2⟩

/-- **C50**, the reader and the format: it is accepted exactly if all its characters are known literals; anything else
    is an error. The points of an accepted format have exactly the described attributes. -/
theorem C50_format_reader {order : List AttrDef → List AttrDef} (ho : ∀ ds, (order ds).Perm ds)
    (text format delimiter : List Char) :
    (ValidFormat format → ∃ r, RawAsciiReader.fromRead order text format delimiter = .ok r ∧
      (∀ ls, Lines text ls → ReaderAt format delimiter r ls) ∧
      (∀ d, d ∈ (PointReader.defaultLayout r).attributes.map Member.definition ↔ Described format d) ∧
      ((∃ d, Described format d) → Solid (PointReader.defaultLayout r))) ∧
    (¬ ValidFormat format → RawAsciiReader.fromRead order text format delimiter = .error .err) := by
  constructor
  · intro hv
    obtain ⟨ts, h1, h2⟩ := getParseLayout_ok hv
    obtain ⟨l, h3, h4, h5⟩ := pointLayout_ok ho ts
    refine ⟨⟨text, delimiter, l, ts⟩, ?_, fun ls hls => ⟨h1, rfl, hls⟩, fun d => ?_, ?_⟩
    · unfold RawAsciiReader.fromRead
      simp only [bind, Except.bind, h1, h3]
      rfl
    · rw [described_iff h2]
      exact h4 d
    · rintro ⟨d, hd⟩
      obtain ⟨t, ht, c, hc, _⟩ := (described_iff h2 d).1 hd
      refine h5 ⟨t, ht, ?_⟩
      rintro rfl
      cases hc
  · intro hv
    unfold RawAsciiReader.fromRead
    rw [getParseLayout_err hv]
    rfl

/-- **C50**, the writer and the format. -/
theorem C50_format_writer (format : List Char) :
    (ValidFormat format → ∃ w, RawAsciiWriter.fromWrite format = .ok w ∧ w.text = [] ∧ w.delimiter = ", ".toList ∧
      w.precision = 5 ∧ getParseLayout format = .ok w.parseLayout) ∧
    (¬ ValidFormat format → RawAsciiWriter.fromWrite format = .error .err) := by
  constructor
  · intro hv
    obtain ⟨ts, h1, _⟩ := getParseLayout_ok hv
    refine ⟨⟨[], [',', ' '], 5, ts⟩, ?_, rfl, rfl, rfl, h1⟩
    unfold RawAsciiWriter.fromWrite
    rw [h1]
    rfl
  · intro hv
    unfold RawAsciiWriter.fromWrite
    rw [getParseLayout_err hv]
    rfl

/-- Valid and invalid formats. -/
example : ValidFormat "xyzirncRGB".toList ∧ ¬ ValidFormat "xyq".toList ∧ Described "xyi".toList ⟨"Intensity", .u16⟩ := by
  refine ⟨by unfold ValidFormat; decide, by unfold ValidFormat; decide, 2, _, rfl, rfl⟩

/-! ## C50: reading lines -/

/-- The line, cut at the delimiter, has a readable value for every literal. -/
def ReadableLine (format delimiter line : List Char) : Prop :=
  ∃ cols, LineColumns delimiter line cols ∧ GoodLine format cols

/-- `p` is the point in layout `l` that the line stands for. -/
def PointAt (format delimiter : List Char) (l : PointLayout) (line : List Char) (p : Point) : Prop :=
  ∃ cols, LineColumns delimiter line cols ∧ PointOfLine format cols l p

theorem readable_iff {format : List Char} {ts : List PointDataType}
    (hm : format.map meaning = ts.map fun t => some (columnOf t)) (d line : List Char) :
    Good (ts.map columnOf) (split line d) ↔ ReadableLine format d line := by
  rw [good_iff hm]
  constructor
  · exact fun h => ⟨_, (split_iff d line _).1 rfl, h⟩
  · rintro ⟨cols, h1, h2⟩
    rwa [(split_iff d line cols).2 h1]

theorem overwrite_map {α γ : Type} (f : α → γ) (xs : List α) (i : Nat) (ys : List α) :
    (overwrite xs i ys).map f = overwrite (xs.map f) i (ys.map f) := by
  simp [overwrite, List.map_take, List.map_drop]

theorem overwrite_allLen {sz : Nat} {rs news : List Bytes} (h : AllLen sz rs) (h' : AllLen sz news) (i : Nat) :
    AllLen sz (overwrite rs i news) := by
  unfold overwrite
  exact ((h.take _).append h').append (h.drop _)

theorem forall₂_right {α γ : Type} {R : α → γ → Prop} {xs : List α} {ys : List γ} (h : List.Forall₂ R xs ys) :
    ∀ y ∈ ys, ∃ x ∈ xs, R x y := by
  induction h with
  | nil => intro y hy; cases hy
  | cons h _ ih =>
    intro y hy
    rcases List.mem_cons.1 hy with rfl | hy
    · exact ⟨_, by simp, h⟩
    · obtain ⟨x, hx, h'⟩ := ih y hy
      exact ⟨x, by simp [hx], h'⟩

section
variable {β : Type} [OwningBuffer β] [AsMemoryMut β] [RecordBuffer β]

theorem read_ok {format d : List Char} {r : RawAsciiReader} {ls : List (List Char)} (hr : ReaderAt format d r ls)
    {l : PointLayout} (hl : Solid l) {rs : List Bytes} (hall : AllLen l.size rs) {count : Nat}
    (hfit : min count ls.length ≤ rs.length) (hgood : ∀ line ∈ ls.take count, ReadableLine format d line) :
    ∃ r' news, PointReader.readInto r (HoldsRecords.ofRecords l rs : β) count =
        .ok (count, HoldsRecords.ofRecords l (overwrite rs 0 news), r') ∧
      AllLen l.size news ∧ ReaderAt format d r' (ls.drop count) ∧ r'.layout = r.layout ∧
      List.Forall₂ (PointAt format d l) (ls.take count) (news.map (pointOf l)) := by
  obtain ⟨_, hm⟩ := format_types hr.format_eq
  have hd := hr.delimiter_eq
  obtain ⟨text', news, h1, h2, h3⟩ := readLoop_ok (β := β) hl r.delimiter r.parseLayout count 0 (zeros l.size) r.rest ls rs
    hr.lines hall (by omega) (by simp [zeros]) (blank_zeros hl _) (fun line hline => by
      rw [hd]; exact (readable_iff hm d line).2 (hgood line hline))
  refine ⟨{ r with rest := text' }, news, ?_, ?_, ⟨hr.format_eq, hd, h2⟩, rfl, ?_⟩
  · have hlay : BorrowedBuffer.layout (HoldsRecords.ofRecords l rs : β) = l := (HoldsRecords.shows hl hall).layout_eq
    show (RawAsciiReader.readLoop _ _ _ _ (UntypedPoint.new (BorrowedBuffer.layout (HoldsRecords.ofRecords l rs : β))) _ _).bind _ = _
    rw [hlay]
    show (RawAsciiReader.readLoop _ _ _ _ (⟨l, zeros l.size⟩) _ _).bind _ = _
    rw [h1]
    rfl
  · intro x hx
    obtain ⟨line, _, h⟩ := forall₂_right h3 x hx
    exact h.1
  · rw [List.forall₂_map_right_iff]
    refine h3.imp fun line rec h => ?_
    rw [hd] at h
    exact ⟨_, (split_iff d line _).1 rfl, pointOfLine hm hl h⟩

theorem read_err {format d : List Char} {r : RawAsciiReader} {ls : List (List Char)} (hr : ReaderAt format d r ls)
    {l : PointLayout} (hl : Solid l) {rs : List Bytes} (hall : AllLen l.size rs) {count : Nat}
    (hfit : min count ls.length ≤ rs.length) (hbad : ∃ line ∈ ls.take count, ¬ ReadableLine format d line) :
    PointReader.readInto r (HoldsRecords.ofRecords l rs : β) count = .error .err := by
  obtain ⟨_, hm⟩ := format_types hr.format_eq
  have hd := hr.delimiter_eq
  obtain ⟨line, hline, hb⟩ := hbad
  have h1 := readLoop_err (β := β) hl r.delimiter r.parseLayout count 0 (zeros l.size) r.rest ls rs
    hr.lines hall (by omega) (by simp [zeros]) (blank_zeros hl _) ⟨line, hline, fun h => hb (by
      rw [hd] at h; exact (readable_iff hm d line).1 h)⟩
  have hlay : BorrowedBuffer.layout (HoldsRecords.ofRecords l rs : β) = l := (HoldsRecords.shows hl hall).layout_eq
  show (RawAsciiReader.readLoop _ _ _ _ (UntypedPoint.new (BorrowedBuffer.layout (HoldsRecords.ofRecords l rs : β))) _ _).bind _ = _
  rw [hlay]
  show (RawAsciiReader.readLoop _ _ _ _ (⟨l, zeros l.size⟩) _ _).bind _ = _
  rw [h1]
  rfl

theorem read_panic {format d : List Char} {r : RawAsciiReader} {ls : List (List Char)} (hr : ReaderAt format d r ls)
    {l : PointLayout} (hl : Solid l) {rs : List Bytes} (hall : AllLen l.size rs) {count : Nat}
    (hfit : rs.length < min count ls.length) (hgood : ∀ line ∈ ls.take count, ReadableLine format d line) :
    PointReader.readInto r (HoldsRecords.ofRecords l rs : β) count = .error .panic := by
  obtain ⟨_, hm⟩ := format_types hr.format_eq
  have hd := hr.delimiter_eq
  have h1 := readLoop_panic (β := β) hl r.delimiter r.parseLayout count 0 (zeros l.size) r.rest ls rs
    hr.lines hall (by omega) (by omega) (by simp [zeros]) (blank_zeros hl _) (fun line hline => by
      rw [hd]; exact (readable_iff hm d line).2 (hgood line hline))
  have hlay : BorrowedBuffer.layout (HoldsRecords.ofRecords l rs : β) = l := (HoldsRecords.shows hl hall).layout_eq
  show (RawAsciiReader.readLoop _ _ _ _ (UntypedPoint.new (BorrowedBuffer.layout (HoldsRecords.ofRecords l rs : β))) _ _).bind _ = _
  rw [hlay]
  show (RawAsciiReader.readLoop _ _ _ _ (⟨l, zeros l.size⟩) _ _).bind _ = _
  rw [h1]
  rfl

theorem read_points {format d : List Char} {r : RawAsciiReader} {ls : List (List Char)} (hr : ReaderAt format d r ls)
    {b : β} (hl : Solid (layout b)) (hb : RecordBuffer.Consistent b) {ps : List Point} (h : ShowsPoints b (layout b) ps)
    (count : Nat) :
    (min count ls.length ≤ ps.length → (∀ line ∈ ls.take count, ReadableLine format d line) →
      ∃ (c : β) (r' : RawAsciiReader) (news : List Point), PointReader.readInto r b count = .ok (count, c, r') ∧
        RecordBuffer.Consistent c ∧ ShowsPoints c (layout b) (overwrite ps 0 news) ∧
        List.Forall₂ (PointAt format d (layout b)) (ls.take count) news ∧ ReaderAt format d r' (ls.drop count)) ∧
    (min count ls.length ≤ ps.length → (∃ line ∈ ls.take count, ¬ ReadableLine format d line) →
      PointReader.readInto r b count = .error .err) ∧
    (ps.length < min count ls.length → (∀ line ∈ ls.take count, ReadableLine format d line) →
      PointReader.readInto r b count = .error .panic) := by
  obtain ⟨rs, h1, h2, h3⟩ := record_shows hb hl h
  have hlen : ps.length = rs.length := by rw [h3, List.length_map]
  generalize layout b = l at *
  subst h2
  refine ⟨fun hf hg => ?_, fun hf hg => ?_, fun hf hg => ?_⟩
  · obtain ⟨r', news, e1, e2, e3, _, e4⟩ := read_ok (β := β) hr hl h1 (hlen ▸ hf) hg
    have hall := overwrite_allLen h1 e2 0
    refine ⟨_, r', news.map (pointOf l), e1, RecordBuffer.consistent hl hall, ?_, e4, e3⟩
    have := HoldsRecords.shows (β := β) hl hall
    rwa [overwrite_map, ← h3] at this
  · exact read_err hr hl h1 (hlen ▸ hf) hg
  · exact read_panic hr hl h1 (hlen ▸ hf) hg

end

/-- **C50**, reading into an interleaved buffer: if the buffer has room for them and the next `count` lines are
    readable, the buffer's first points become the points of these lines; if one is not, that is an error; if the
    buffer is too short, that is a panic. -/
theorem C50_read_interleaved {format d : List Char} {r : RawAsciiReader} {ls : List (List Char)}
    (hr : ReaderAt format d r ls) (b : VectorBuffer) (hl : Solid b.layout) (hb : VectorConsistent b) (ps : List Point)
    (h : ShowsPoints b b.layout ps) (count : Nat) :
    (min count ls.length ≤ ps.length → (∀ line ∈ ls.take count, ReadableLine format d line) →
      ∃ (c : VectorBuffer) (r' : RawAsciiReader) (news : List Point),
        PointReader.readInto r b count = .ok (count, c, r') ∧
        VectorConsistent c ∧ ShowsPoints c b.layout (overwrite ps 0 news) ∧
        List.Forall₂ (PointAt format d b.layout) (ls.take count) news ∧ ReaderAt format d r' (ls.drop count)) ∧
    (min count ls.length ≤ ps.length → (∃ line ∈ ls.take count, ¬ ReadableLine format d line) →
      PointReader.readInto r b count = .error .err) ∧
    (ps.length < min count ls.length → (∀ line ∈ ls.take count, ReadableLine format d line) →
      PointReader.readInto r b count = .error .panic) :=
  read_points (β := VectorBuffer) hr hl hb h count

/-- **C50**, reading into a columnar buffer. -/
theorem C50_read_columnar {format d : List Char} {r : RawAsciiReader} {ls : List (List Char)}
    (hr : ReaderAt format d r ls) (b : HashMapBuffer) (hl : Solid b.layout) (hb : HashMapConsistent b) (ps : List Point)
    (h : ShowsPoints b b.layout ps) (count : Nat) :
    (min count ls.length ≤ ps.length → (∀ line ∈ ls.take count, ReadableLine format d line) →
      ∃ (c : HashMapBuffer) (r' : RawAsciiReader) (news : List Point),
        PointReader.readInto r b count = .ok (count, c, r') ∧
        HashMapConsistent c ∧ ShowsPoints c b.layout (overwrite ps 0 news) ∧
        List.Forall₂ (PointAt format d b.layout) (ls.take count) news ∧ ReaderAt format d r' (ls.drop count)) ∧
    (min count ls.length ≤ ps.length → (∃ line ∈ ls.take count, ¬ ReadableLine format d line) →
      PointReader.readInto r b count = .error .err) ∧
    (ps.length < min count ls.length → (∀ line ∈ ls.take count, ReadableLine format d line) →
      PointReader.readInto r b count = .error .panic) :=
  read_points (β := HashMapBuffer) hr hl hb h count

/-- A text with two readable lines. -/
def sampleText : List Char := "1.5,7\n-20.25,8\n".toList

theorem sample_lines : Lines sampleText ["1.5,7".toList, "-20.25,8".toList] := by
  refine .lf ['1', '.', '5', ',', '7'] _ _ (by decide) (by decide) ?_
  exact .lf ['-', '2', '0', '.', '2', '5', ',', '8'] _ _ (by decide) (by decide) .none

theorem sample_readable : ∀ line ∈ ["1.5,7".toList, "-20.25,8".toList], ReadableLine "xi".toList ",".toList line := by
  intro line hline
  have hm : "xi".toList.map meaning = [PointDataType.coordinateX, .intensity].map fun t => some (columnOf t) := rfl
  rw [← readable_iff hm]
  have key : ∀ s1 s2 : List Char, split line ",".toList = [s1, s2] → (parseF64 s1).isSome = true →
      (parseInt .u16 s2).isSome = true → Good ([PointDataType.coordinateX, .intensity].map columnOf) (split line ",".toList) := by
    intro s1 s2 h h1 h2
    rw [h]
    refine ⟨Nat.le_refl _, fun i c s hc hs => ?_⟩
    rcases i with _ | _ | i
    · cases hc
      cases hs
      obtain ⟨x, hx⟩ := Option.isSome_iff_exists.1 h1
      exact ⟨.double x, by unfold valueOf parseString; simp [hx, orErr]; rfl⟩
    · cases hc
      cases hs
      obtain ⟨x, hx⟩ := Option.isSome_iff_exists.1 h2
      exact ⟨.int x, by unfold valueOf parseString; simp [hx, orErr]; rfl⟩
    · simp at hs
  rcases List.mem_cons.1 hline with rfl | hline
  · exact key "1.5".toList "7".toList (by decide) (by decide +kernel) (by decide +kernel)
  · rcases List.mem_cons.1 hline with rfl | hline
    · exact key "-20.25".toList "8".toList (by decide) (by decide +kernel) (by decide +kernel)
    · cases hline

/-- The hypotheses of `C50_read_interleaved` are met. -/
example : ∃ r, RawAsciiReader.fromRead id sampleText "xi".toList ",".toList = .ok r ∧
    ReaderAt "xi".toList ",".toList r ["1.5,7".toList, "-20.25,8".toList] ∧ Solid (PointReader.defaultLayout r) := by
  obtain ⟨r, h1, h2, _, h3⟩ := (C50_format_reader (order := id) (fun _ => .refl _) sampleText "xi".toList ",".toList).1
    (by unfold ValidFormat; decide)
  exact ⟨r, h1, h2 _ sample_lines, h3 ⟨_, 0, _, rfl, rfl⟩⟩

/-! ## C52 -/

section
variable {β : Type} [OwningBuffer β] [AsMemoryMut β] [MakeBufferFromLayout β] [MakesRecords β]

theorem read_whole {format d : List Char} {r : RawAsciiReader} {ls : List (List Char)} (hr : ReaderAt format d r ls)
    (hl : Solid (PointReader.defaultLayout r)) {count : Nat} (hgood : ∀ line ∈ ls.take count, ReadableLine format d line) :
    ∃ (b : β) (r' : RawAsciiReader) (news : List Point), readPoints β r count = .ok (b, r') ∧
      RecordBuffer.Consistent b ∧
      ShowsPoints b (PointReader.defaultLayout r)
        (news ++ List.replicate (count - ls.length) (zeroPoint (PointReader.defaultLayout r))) ∧
      List.Forall₂ (PointAt format d (PointReader.defaultLayout r)) (ls.take count) news ∧
      ReaderAt format d r' (ls.drop count) := by
  generalize hdef : PointReader.defaultLayout r = l at *
  have hz : AllLen l.size (List.replicate count (List.replicate l.size (0 : Byte))) := AllLen.replicate (by simp) _
  obtain ⟨r', news, e1, e2, e3, _, e4⟩ := read_ok (β := β) hr hl hz (count := count) (by simp) hgood
  have hlen : news.length = min count ls.length := by
    have := e4.length_eq
    simp only [List.length_take, List.length_map] at this
    omega
  have hall := overwrite_allLen hz e2 0
  have hover : overwrite (List.replicate count (List.replicate l.size (0 : Byte))) 0 news =
      news ++ List.replicate (count - ls.length) (List.replicate l.size 0) := by
    unfold overwrite
    rw [List.take_zero, List.nil_append, List.drop_replicate, hlen]
    congr 2
    omega
  rw [hover] at e1 hall
  refine ⟨_, r', news.map (pointOf l), ?_, RecordBuffer.consistent hl hall, ?_, e4, e3⟩
  · unfold readPoints
    dsimp only
    rw [hdef, new_resized hl]
    show (PointReader.readInto _ _ _).bind _ = _
    rw [e1]
    show Except.ok (OwningBuffer.resize _ count, r') = _
    rw [resize_records hl hall]
    congr 3
    unfold resized
    have : (news ++ List.replicate (count - ls.length) (List.replicate l.size (0 : Byte))).length = count := by
      simp only [List.length_append, List.length_replicate]; omega
    rw [this, Nat.sub_self, List.take_of_length_le (by omega)]
    simp
  · have := HoldsRecords.shows (β := β) hl hall
    rwa [List.map_append, List.map_replicate, pointOf_zeros hl] at this

end

/-- **C52 in part**: asking for no more points than there are lines returns exactly the points of these lines. (For
    more see `C52_surplus`.) -/
theorem C52_partial {format d : List Char} {r : RawAsciiReader} {ls : List (List Char)} (hr : ReaderAt format d r ls)
    (hl : Solid (PointReader.defaultLayout r)) {count : Nat} (hc : count ≤ ls.length)
    (hgood : ∀ line ∈ ls.take count, ReadableLine format d line) :
    (∃ (b : VectorBuffer) (r' : RawAsciiReader) (news : List Point), readPoints VectorBuffer r count = .ok (b, r') ∧
      ShowsPoints b (PointReader.defaultLayout r) news ∧
      List.Forall₂ (PointAt format d (PointReader.defaultLayout r)) (ls.take count) news ∧
      ReaderAt format d r' (ls.drop count)) ∧
    (∃ (b : HashMapBuffer) (r' : RawAsciiReader) (news : List Point), readPoints HashMapBuffer r count = .ok (b, r') ∧
      ShowsPoints b (PointReader.defaultLayout r) news ∧
      List.Forall₂ (PointAt format d (PointReader.defaultLayout r)) (ls.take count) news ∧
      ReaderAt format d r' (ls.drop count)) := by
  constructor
  · obtain ⟨b, r', news, h1, _, h2, h3, h4⟩ := read_whole (β := VectorBuffer) hr hl hgood
    rw [Nat.sub_eq_zero_of_le hc, List.replicate_zero, List.append_nil] at h2
    exact ⟨b, r', news, h1, h2, h3, h4⟩
  · obtain ⟨b, r', news, h1, _, h2, h3, h4⟩ := read_whole (β := HashMapBuffer) hr hl hgood
    rw [Nat.sub_eq_zero_of_le hc, List.replicate_zero, List.append_nil] at h2
    exact ⟨b, r', news, h1, h2, h3, h4⟩

/-- What happens instead of C52: whenever more points are asked for than there are lines, `read` returns the points of
    the lines, followed by points that are not in the file: all their bytes are zero. -/
theorem C52_surplus {format d : List Char} {r : RawAsciiReader} {ls : List (List Char)} (hr : ReaderAt format d r ls)
    (hl : Solid (PointReader.defaultLayout r)) {count : Nat} (hc : ls.length < count)
    (hgood : ∀ line ∈ ls, ReadableLine format d line) :
    ∃ (b : VectorBuffer) (r' : RawAsciiReader) (news : List Point), readPoints VectorBuffer r count = .ok (b, r') ∧
      len b = count ∧
      ShowsPoints b (PointReader.defaultLayout r)
        (news ++ List.replicate (count - ls.length) (zeroPoint (PointReader.defaultLayout r))) ∧
      List.Forall₂ (PointAt format d (PointReader.defaultLayout r)) ls news ∧ ReaderAt format d r' [] := by
  have ht : ls.take count = ls := List.take_of_length_le (by omega)
  have hdr : ls.drop count = [] := List.drop_of_length_le (by omega)
  obtain ⟨b, r', news, h1, _, h2, h3, h4⟩ := read_whole (β := VectorBuffer) hr hl (count := count) (by rwa [ht])
  rw [ht] at h3
  rw [hdr] at h4
  refine ⟨b, r', news, h1, ?_, h2, h3, h4⟩
  rw [h2.len_eq, List.length_append, List.length_replicate, ← h3.length_eq]
  omega

/-- **C52 is violated**: there is a file with two lines from which `read` returns three points. -/
theorem C52_violated :
    ∃ r, RawAsciiReader.fromRead id sampleText "xi".toList ",".toList = .ok r ∧
      ReaderAt "xi".toList ",".toList r ["1.5,7".toList, "-20.25,8".toList] ∧
      ∃ (b : VectorBuffer) (r' : RawAsciiReader), readPoints VectorBuffer r 3 = .ok (b, r') ∧ len b = 3 := by
  obtain ⟨r, h1, h2, _, h3⟩ := (C50_format_reader (order := id) (fun _ => .refl _) sampleText "xi".toList ",".toList).1
    (by unfold ValidFormat; decide)
  have hr := h2 _ sample_lines
  obtain ⟨b, r', _, g1, g2, _⟩ := C52_surplus hr (h3 ⟨_, 0, _, rfl, rfl⟩) (count := 3) (by decide) sample_readable
  exact ⟨r, h1, hr, b, r', g1, g2⟩

/-! ## C50: another datatype -/

/-- **C50 is violated** for buffers in which the attribute has another datatype, although the documentation of
    `read_into` promises a conversion or an error: the value is dropped. Here the intensity is a `u32`. -/
theorem C50_datatype_violated :
    ∃ (r : RawAsciiReader) (l : PointLayout) (c : VectorBuffer) (r' : RawAsciiReader),
      RawAsciiReader.fromRead id "7\n".toList "i".toList ",".toList = .ok r ∧
      PointLayout.fromAttributes [⟨"Intensity", .u32⟩] = .ok l ∧
      PointReader.readInto r (OwningBuffer.resize (MakeBufferFromLayout.newFromLayout l : VectorBuffer) 1) 1 =
        .ok (1, c, r') ∧
      getAttribute c ⟨"Intensity", .u32⟩ 0 (zeros 4) = .ok [0, 0, 0, 0] := by
  exact ⟨_, _, _, _, rfl, rfl, rfl, rfl⟩

/-! ## C53 -/

theorem decimal_text (neg : Bool) {int frac : List Char} (h1 : IsDigits int) (h2 : int ≠ []) (h3 : IsDigits frac) :
    DecimalText ((if neg then ['-'] else []) ++ int ++ '.' :: frac) neg
      (if neg then -((digitsNumber (int ++ frac) : ℚ) / 10 ^ frac.length)
        else (digitsNumber (int ++ frac) : ℚ) / 10 ^ frac.length) := by
  refine ⟨int ++ '.' :: frac, (digitsNumber (int ++ frac) : ℚ) / 10 ^ frac.length, ?_, ?_, by cases neg <;> rfl⟩
  · cases neg
    · refine .inr (.inr ⟨rfl, rfl, ?_, ?_⟩)
      all_goals
        cases int with
        | nil => exact absurd rfl h2
        | cons c cs =>
          have := (digit_range c).1 (isDigits_cons.1 h1).1
          intro hc
          simp only [List.cons_append, List.head?_cons, Option.some.injEq] at hc
          subst hc
          revert this
          decide
    · exact .inl ⟨rfl, rfl⟩
  · refine ⟨int, frac, [], 0, h1, h3, .inl h2, .inl ⟨rfl, rfl⟩, .inl (by simp), ?_⟩
    rw [zero_sub, zpow_neg, zpow_natCast]
    rfl

/-- **C53 in part**: trimming the zeros of a number formatted with at least one decimal place leaves a text of the same
    number (and infinities and NaN as they are). (For precision 0 see `C53_violated`.) -/
theorem C53_partial (precision : Nat) (hp : 1 ≤ precision) (x : F64) :
    (x.isFinite = true → ∃ q, DecimalText (fixedText precision x) x.neg q ∧
      DecimalText (trimZeros (fixedText precision x)) x.neg q) ∧
    (x.isFinite = false → trimZeros (fixedText precision x) = fixedText precision x) := by
  have hcases : x.isFinite = true ↔ ¬ x.isNaN = true ∧ ¬ x.isInf = true := by
    unfold Flt.isFinite Flt.isNaN Flt.isInf
    simp only [decide_eq_true_eq]
    omega
  constructor
  · intro hf
    obtain ⟨hn, hi⟩ := hcases.1 hf
    unfold fixedText
    rw [if_neg hn]
    dsimp only
    rw [if_neg hi, if_neg (show ¬ precision = 0 by omega)]
    generalize roundDiv (FloatFormat.f64.units x.mag * 10 ^ precision) FloatFormat.f64.one = n
    obtain ⟨i1, i2, -, -⟩ := natText_spec (n / 10 ^ precision)
    have f1 := fixedDigits_length precision (n % 10 ^ precision)
    have f2 := fixedDigits_digits precision (n % 10 ^ precision)
    generalize natText (n / 10 ^ precision) = int at *
    generalize fixedDigits precision (n % 10 ^ precision) = frac at *
    have fne : frac ≠ [] := by rintro rfl; simp at f1; omega
    obtain ⟨k, frac', t1, t2, t3, t4⟩ := trimZeros_point ((if x.neg then ['-'] else []) ++ int) frac fne f2
    have f2' : IsDigits frac' := by rw [t2] at f2; exact (isDigits_append.1 f2).1
    refine ⟨_, decimal_text x.neg i2 i1 f2, ?_⟩
    rw [t1]
    have := decimal_text x.neg i2 i1 f2'
    rw [← trimmed_number int frac' k, ← t2] at this
    exact this
  · intro hf
    have hne : ¬ (¬ x.isNaN = true ∧ ¬ x.isInf = true) := fun h => by
      rw [hcases.2 h] at hf; cases hf
    unfold fixedText
    by_cases hn : x.isNaN = true
    · rw [if_pos hn, trimZeros_other _ (by decide)]
    · rw [if_neg hn]
      dsimp only
      have hi : x.isInf = true := by
        by_contra h
        exact hne ⟨hn, h⟩
      rw [if_pos hi, trimZeros_other _ (by rw [List.getLast?_append]; simp)]

/-- The general form: zeros behind a decimal point. -/
theorem C53_any_text_partial (neg : Bool) (int frac : List Char) (h1 : IsDigits int) (h2 : int ≠ [])
    (h3 : IsDigits frac) (h4 : frac ≠ []) :
    ∃ q, DecimalText ((if neg then ['-'] else []) ++ int ++ '.' :: frac) neg q ∧
      DecimalText (trimZeros ((if neg then ['-'] else []) ++ int ++ '.' :: frac)) neg q := by
  obtain ⟨k, frac', t1, t2, t3, t4⟩ := trimZeros_point ((if neg then ['-'] else []) ++ int) frac h4 h3
  have f2' : IsDigits frac' := by rw [t2] at h3; exact (isDigits_append.1 h3).1
  refine ⟨_, decimal_text neg h1 h2 h3, ?_⟩
  rw [t1]
  have := decimal_text neg h1 h2 f2'
  rw [← trimmed_number int frac' k, ← t2] at this
  exact this

/-- **C53 is violated** for precision 0: ten is written as `1`, and zero as the empty text. -/
theorem C53_violated :
    fixedText 0 (Flt.ofInt .f64 10) = "10".toList ∧ trimZeros (fixedText 0 (Flt.ofInt .f64 10)) = "1".toList ∧
    trimZeros (fixedText 0 (Flt.ofInt .f64 0)) = [] := by
  decide +kernel

example : trimZeros (fixedText 3 (Flt.ofInt .f64 10)) = "10.0".toList ∧
    fixedText 3 (Flt.ofInt .f64 10) = "10.000".toList := by
  decide +kernel

/-! ## C51 -/

/-- The writer writes texts of the format. -/
def WriterFor (format : List Char) (w : RawAsciiWriter) : Prop := getParseLayout format = .ok w.parseLayout

/-- The format whose columns are really written: `c` and `u` are written like `r`. -/
def writtenFormat (format : List Char) : List Char := format.map fun c => if c = 'c' ∨ c = 'u' then 'r' else c

theorem writtenAs_idem (t : PointDataType) : writtenAs (writtenAs t) = writtenAs t := by cases t <;> rfl

theorem literal_written (c : Char) : ∀ t, literal c = .ok t →
    literal (if c = 'c' ∨ c = 'u' then 'r' else c) = .ok (writtenAs t) := by
  intro t h
  by_cases h1 : c = 'c'
  · subst h1; cases h; rfl
  · by_cases h2 : c = 'u'
    · subst h2; cases h; rfl
    · rw [if_neg (by simp [h1, h2]), h]
      congr 1
      unfold literal at h
      split at h
      all_goals first
        | exact absurd rfl h1
        | exact absurd rfl h2
        | (cases h <;> rfl)

theorem written_types {format : List Char} {ts : List PointDataType} (h : getParseLayout format = .ok ts) :
    getParseLayout (writtenFormat format) = .ok (ts.map writtenAs) := by
  have key : ∀ (format : List Char) (out ts : List PointDataType),
      forLoop format out (fun out c => do
        let t ← literal c
        pure (out ++ [t])) = .ok ts →
      forLoop (writtenFormat format) (out.map writtenAs) (fun out c => do
        let t ← literal c
        pure (out ++ [t])) = .ok (ts.map writtenAs) := by
    intro format
    induction format with
    | nil => intro out ts h; cases h; rfl
    | cons c cs ih =>
      intro out ts h
      rw [forLoop_cons] at h
      show forLoop (_ :: writtenFormat cs) _ _ = _
      rw [forLoop_cons]
      cases hc : literal c with
      | error e => rw [hc] at h; cases h
      | ok t =>
        rw [hc] at h
        rw [literal_written c t hc]
        have := ih (out ++ [t]) ts h
        rw [List.map_append] at this
        exact this
  exact key format [] ts h

theorem pointText_written (precision : Nat) (p : Point) (t : PointDataType) :
    pointText precision p (writtenAs t) = pointText precision p t := by
  unfold pointText
  rw [writtenAs_idem]

theorem pointLine_written (w : RawAsciiWriter) (p : Point) :
    pointLine { w with parseLayout := w.parseLayout.map writtenAs } p = pointLine w p := by
  unfold pointLine
  dsimp only
  congr 1
  rw [List.mapM_map]
  congr 1
  funext t
  exact pointText_written _ _ _

theorem points_typed {β : Type} [BorrowedBuffer β] {b : β} {l : PointLayout} (hl : Solid l) {ps : List Point}
    (hb : ShowsPoints b l ps) {p : Point} (hp : p ∈ ps) :
    (∀ d, d ∈ l.attributes.map Member.definition ↔ ∃ v, p.get d = some v) ∧
      ∀ d v, p.get d = some v → v.length = d.size := by
  obtain ⟨i, hi⟩ := List.getElem?_of_mem hp
  obtain ⟨r, _, h2, rfl⟩ := hb.getPoint_ok i p (zeros l.size) hi (by simp [zeros])
  constructor
  · intro d
    rw [pointOf_get]
    constructor
    · intro hd
      obtain ⟨m, hm, rfl⟩ := List.mem_map.1 hd
      have : (l.attributes.find? fun m' => m'.definition = m.definition).isSome = true :=
        List.find?_isSome.2 ⟨m, hm, by simp⟩
      obtain ⟨m', hm'⟩ := Option.isSome_iff_exists.1 this
      exact ⟨_, by rw [hm']; rfl⟩
    · rintro ⟨v, hv⟩
      obtain ⟨m, hm, _⟩ := Option.map_eq_some_iff.1 hv
      have h1 := List.mem_of_find?_eq_some hm
      have h2 := List.find?_some hm
      simp only [decide_eq_true_eq] at h2
      exact List.mem_map.2 ⟨m, h1, h2⟩
  · intro d v hv
    rw [pointOf_get] at hv
    obtain ⟨m, hm, rfl⟩ := Option.map_eq_some_iff.1 hv
    have h1 := List.mem_of_find?_eq_some hm
    have h2 := List.find?_some hm
    simp only [decide_eq_true_eq] at h2
    subst h2
    exact length_window (by have := hl.inside m h1; omega)

theorem forall₂_of_getElem {α γ : Type} {R : α → γ → Prop} : ∀ {xs : List α} {ys : List γ}, xs.length = ys.length →
    (∀ (i : Nat) x y, xs[i]? = some x → ys[i]? = some y → R x y) → List.Forall₂ R xs ys
  | [], [], _, _ => .nil
  | x :: xs, y :: ys, h, hR =>
    .cons (hR 0 x y rfl rfl) (forall₂_of_getElem (by simpa using h) fun i a b ha hb => hR (i + 1) a b ha hb)
  | [], _ :: _, h, _ => by simp at h
  | _ :: _, [], h, _ => by simp at h

theorem faithful_written (ts : List PointDataType) : Faithful (ts.map writtenAs) := by
  intro t ht
  obtain ⟨t', _, rfl⟩ := List.mem_map.1 ht
  exact writtenAs_idem t'

/-- The columns of all points exist if the attributes do. -/
theorem columns_ok {format : List Char} {w : RawAsciiWriter} (hw : WriterFor format w) {p : Point}
    (hp : ∀ d, Described (writtenFormat format) d → ∃ v, p.get d = some v) :
    ∃ cols, w.parseLayout.mapM (pointText w.precision p) = .ok cols := by
  obtain ⟨_, hm⟩ := format_types hw
  obtain ⟨_, hm'⟩ := format_types (written_types hw)
  apply mapM_ok_of
  intro t ht
  unfold pointText
  cases hc : columnOf (writtenAs t) with
  | none => exact ⟨_, rfl⟩
  | some c =>
    obtain ⟨v, hv⟩ := hp c.attr ((described_iff hm' _).2 ⟨writtenAs t, List.mem_map_of_mem ht, c, hc, rfl⟩)
    exact ⟨numText w.precision c (c.part v), by simp only [hv]⟩

/-- What the writer does for every format: it writes one line per point with the columns of the format in which `c` and
    `u` are replaced by `r`. -/
theorem C51_written {β : Type} [BorrowedBuffer β] {b : β} {l : PointLayout} (hl : Solid l) {ps : List Point}
    (hb : ShowsPoints b l ps) {format : List Char} {w : RawAsciiWriter} (hw : WriterFor format w)
    (hp : 1 ≤ w.precision)
    (hattr : ∀ d, Described (writtenFormat format) d → d ∈ l.attributes.map Member.definition) :
    ∃ w' lines, w.write b = .ok w' ∧ w'.text = w.text ++ lines.flatten ∧
      List.Forall₂ (LineOfPoint (writtenFormat format) w.precision w.delimiter) ps lines ∧
      WriterFor format w' ∧ w'.delimiter = w.delimiter ∧ w'.precision = w.precision := by
  obtain ⟨_, hm⟩ := format_types hw
  obtain ⟨_, hm'⟩ := format_types (written_types hw)
  have hok : ∀ p ∈ ps, ∃ line, pointLine w p = .ok line := by
    intro p hpp
    obtain ⟨cols, hc⟩ := columns_ok hw (p := p) fun d hd => ((points_typed hl hb hpp).1 d).1 (hattr d hd)
    exact ⟨_, by unfold pointLine; rw [hc]; rfl⟩
  obtain ⟨ls, hls⟩ := mapM_ok_of hok
  obtain ⟨hlen, hget⟩ := mapM_ok_getElem hls
  refine ⟨{ w with text := w.text ++ (ls.map (· ++ ['\n'])).flatten }, ls.map (· ++ ['\n']), ?_, rfl, ?_, hw, rfl, rfl⟩
  · rw [write_eq hl hb w, hls]
    rfl
  · apply forall₂_of_getElem (by rw [List.length_map, hlen])
    intro i p s h1 h2
    obtain ⟨line, h3, h4⟩ := hget i p h1
    rw [List.getElem?_map, h3] at h2
    cases h2
    rw [← pointLine_written] at h4
    obtain ⟨cols, h5, rfl⟩ := pointLine_ok h4
    exact ⟨cols, columnsOfPoint (w := { w with parseLayout := w.parseLayout.map writtenAs }) hm'
      (faithful_written _) hp h5, rfl⟩

theorem writtenFormat_eq {format : List Char} (hc : 'c' ∉ format) (hu : 'u' ∉ format) : writtenFormat format = format := by
  unfold writtenFormat
  conv_rhs => rw [← List.map_id format]
  apply List.map_congr_left
  intro c h
  rw [if_neg]
  · rfl
  · rintro (rfl | rfl)
    · exact hc h
    · exact hu h

/-- **C51 in part**, writing: without `c` and `u`, one line per point, in which column `i` is the text of the attribute
    named by literal `i`. -/
theorem C51_lines_partial {β : Type} [BorrowedBuffer β] {b : β} {l : PointLayout} (hl : Solid l) {ps : List Point}
    (hb : ShowsPoints b l ps) {format : List Char} (hc : 'c' ∉ format) (hu : 'u' ∉ format) {w : RawAsciiWriter}
    (hw : WriterFor format w) (hp : 1 ≤ w.precision)
    (hattr : ∀ d, Described format d → d ∈ l.attributes.map Member.definition) :
    ∃ w' lines, w.write b = .ok w' ∧ w'.text = w.text ++ lines.flatten ∧
      List.Forall₂ (LineOfPoint format w.precision w.delimiter) ps lines ∧
      WriterFor format w' ∧ w'.delimiter = w.delimiter ∧ w'.precision = w.precision := by
  have he := writtenFormat_eq hc hu
  have := C51_written hl hb hw hp (by rwa [he])
  rwa [he] at this

/-- **C51**, the settings: a new writer on which `set_delimiter` and `set_precision` were called, in either
    order, writes lines with that delimiter and that precision; without the calls they are `", "` and 5. -/
theorem C51_settings {β : Type} [BorrowedBuffer β] {b : β} {l : PointLayout} (hl : Solid l) {ps : List Point}
    (hb : ShowsPoints b l ps) {format : List Char} {w : RawAsciiWriter} (hw : RawAsciiWriter.fromWrite format = .ok w)
    (delimiter : List Char) {precision : Nat} (hp : 1 ≤ precision)
    (hattr : ∀ d, Described (writtenFormat format) d → d ∈ l.attributes.map Member.definition) :
    (w.setDelimiter delimiter).setPrecision precision = (w.setPrecision precision).setDelimiter delimiter ∧
    (∃ w' lines, ((w.setDelimiter delimiter).setPrecision precision).write b = .ok w' ∧ w'.text = lines.flatten ∧
      List.Forall₂ (LineOfPoint (writtenFormat format) precision delimiter) ps lines) ∧
    ∃ w' lines, w.write b = .ok w' ∧ w'.text = lines.flatten ∧
      List.Forall₂ (LineOfPoint (writtenFormat format) 5 ", ".toList) ps lines := by
  unfold RawAsciiWriter.fromWrite at hw
  cases ht : getParseLayout format with
  | error e => rw [ht] at hw; cases hw
  | ok ts =>
    rw [ht] at hw
    cases hw
    refine ⟨rfl, ?_, ?_⟩
    · obtain ⟨w', lines, h1, h2, h3, -⟩ := C51_written hl hb
        (w := ((⟨[], [',', ' '], 5, ts⟩ : RawAsciiWriter).setDelimiter delimiter).setPrecision precision) ht hp hattr
      exact ⟨w', lines, h1, h2, h3⟩
    · obtain ⟨w', lines, h1, h2, h3, -⟩ := C51_written hl hb (w := ⟨[], [',', ' '], 5, ts⟩) ht (show 1 ≤ 5 by omega) hattr
      exact ⟨w', lines, h1, h2, h3⟩

/-- Two settings on a concrete buffer. -/
example : ∃ w w', RawAsciiWriter.fromWrite "rr".toList = .ok w ∧
    ((w.setDelimiter ";".toList).setPrecision 2).write (⟨[6, 1, 2, 3], ⟨[⟨Las.classification, 0⟩, ⟨Las.returnNumber, 1⟩],
      2, 1⟩, 2⟩ : VectorBuffer) = .ok w' ∧ w'.text = "1;1\n3;3\n".toList := by
  refine ⟨⟨[], ", ".toList, 5, [.returnNumber, .returnNumber]⟩,
    ⟨"1;1\n3;3\n".toList, ";".toList, 2, [.returnNumber, .returnNumber]⟩, rfl, ?_, rfl⟩
  decide +kernel

/-- **C51**, a missing attribute is an error as soon as there is a point. -/
theorem C51_missing {β : Type} [BorrowedBuffer β] {b : β} {l : PointLayout} (hl : Solid l) {ps : List Point}
    (hb : ShowsPoints b l ps) (hne : ps ≠ []) {format : List Char} {w : RawAsciiWriter} (hw : WriterFor format w)
    {d : AttrDef} (hd : Described (writtenFormat format) d) (hmiss : d ∉ l.attributes.map Member.definition) :
    w.write b = .error .err := by
  obtain ⟨_, hm⟩ := format_types hw
  obtain ⟨_, hm'⟩ := format_types (written_types hw)
  have key : ∀ {α γ : Type} {f : α → Out γ} {xs : List α} (x : α), x ∈ xs → f x = .error .err →
      (∀ x ∈ xs, ∀ e, f x = .error e → e = .err) → xs.mapM f = .error .err := by
    intro α γ f xs
    induction xs with
    | nil => intro x hx; cases hx
    | cons a xs ih =>
      intro x hx hf he
      rw [List.mapM_cons]
      cases ha : f a with
      | error e => rw [he a (by simp) e ha]; rfl
      | ok c =>
        rcases List.mem_cons.1 hx with rfl | hx
        · rw [ha] at hf; cases hf
        · simp only [bind, Except.bind]
          rw [ih x hx hf fun y hy => he y (by simp [hy])]
  have htext : ∀ (p : Point) t e, pointText w.precision p t = .error e → e = .err := by
    intro p t e h
    unfold pointText at h
    cases hc : columnOf (writtenAs t) with
    | none => rw [hc] at h; cases h
    | some c =>
      rw [hc] at h
      dsimp only at h
      cases hg : p.get c.attr with
      | none => rw [hg] at h; cases h; rfl
      | some v => rw [hg] at h; cases h
  obtain ⟨t, ht, c, hc, rfl⟩ := (described_iff hm' d).1 hd
  obtain ⟨t', ht', rfl⟩ := List.mem_map.1 ht
  have hline : ∀ p ∈ ps, pointLine w p = .error .err := by
    intro p hp
    have hg : p.get c.attr = none := by
      cases h : p.get c.attr with
      | none => rfl
      | some v => exact absurd (((points_typed hl hb hp).1 c.attr).2 ⟨v, h⟩) hmiss
    unfold pointLine
    rw [key t' ht' (by unfold pointText; simp only [hc, hg]) fun x _ e => htext p x e]
    rfl
  obtain ⟨p, ps', rfl⟩ := List.exists_cons_of_ne_nil hne
  rw [write_eq hl hb w, List.mapM_cons, hline p (by simp)]
  rfl

theorem round_trip {β γ : Type} [BorrowedBuffer γ] [OwningBuffer β] [AsMemoryMut β] [RecordBuffer β] {b : γ}
    {l : PointLayout} (hl : Solid l) {ps : List Point} (hb : ShowsPoints b l ps) {format : List Char}
    (hc : 'c' ∉ format) (hu : 'u' ∉ format) {w : RawAsciiWriter} (hw : WriterFor format w) (hp : 1 ≤ w.precision)
    (hd : ClearDelimiter w.delimiter) (hempty : w.text = [])
    (hattr : ∀ d, Described format d → d ∈ l.attributes.map Member.definition) :
    ∃ w' ls, w.write b = .ok w' ∧ Lines w'.text ls ∧ ls.length = ps.length ∧
      ∀ (r : RawAsciiReader), ReaderAt format w.delimiter r ls →
        ∀ (t : β), Solid (layout t) → RecordBuffer.Consistent t → ∀ old : List Point, ShowsPoints t (layout t) old →
          ps.length ≤ old.length →
          ∃ t' r' news, PointReader.readInto r t ps.length = .ok (ps.length, t', r') ∧
            ShowsPoints t' (layout t) (overwrite old 0 news) ∧
            List.Forall₂ (Recovered format w.precision) ps news := by
  obtain ⟨_, hm⟩ := format_types hw
  have hf : Faithful w.parseLayout := by
    intro t ht
    have hx : some (columnOf t) ∈ format.map meaning := hm ▸ List.mem_map_of_mem ht
    obtain ⟨ch, h1, h2⟩ := List.mem_map.1 hx
    have hno : ∀ c, meaning ch = some (some c) → c.attr ≠ Las.classification ∧ c.attr ≠ Las.userData := by
      intro c hcol
      have h3 : ch ≠ 'c' := fun h => hc (h ▸ h1)
      have h4 : ch ≠ 'u' := fun h => hu (h ▸ h1)
      unfold meaning at hcol
      split at hcol
      all_goals first
        | exact absurd rfl h3
        | exact absurd rfl h4
        | (cases hcol; decide)
        | cases hcol
    cases t <;> first
      | rfl
      | exact absurd rfl (hno _ h2).1
      | exact absurd rfl (hno _ h2).2
  have hcols : ∀ p ∈ ps, ∃ cols, w.parseLayout.mapM (pointText w.precision p) = .ok cols := fun p hpp =>
    columns_ok hw fun d hd' => ((points_typed hl hb hpp).1 d).1 (hattr d (by rwa [writtenFormat_eq hc hu] at hd'))
  have hok : ∀ p ∈ ps, ∃ line, pointLine w p = .ok line := by
    intro p hpp
    obtain ⟨cols, hc⟩ := hcols p hpp
    exact ⟨_, by unfold pointLine; rw [hc]; rfl⟩
  obtain ⟨ls, hls⟩ := mapM_ok_of hok
  obtain ⟨hlen, hget⟩ := mapM_ok_getElem hls
  have hlines : Lines (ls.map (· ++ ['\n'])).flatten ls := by
    apply lines_flatten
    intro s hs
    obtain ⟨i, hi⟩ := List.getElem?_of_mem hs
    have hi' : i < ps.length := by rw [← hlen]; exact (List.getElem?_eq_some_iff.1 hi).1
    obtain ⟨line, h3, h4⟩ := hget i _ (List.getElem?_eq_getElem hi')
    rw [hi] at h3
    cases h3
    obtain ⟨cols, h5, rfl⟩ := pointLine_ok h4
    exact line_ends hd (columns_plain hp h5)
  refine ⟨{ w with text := w.text ++ (ls.map (· ++ ['\n'])).flatten }, ls, ?_, ?_, hlen, ?_⟩
  · rw [write_eq hl hb w, hls]
    rfl
  · rw [hempty]
    exact hlines
  · intro r hr t htl htc old hold hroom
    have hr' := hr.format_eq
    have hts : r.parseLayout = w.parseLayout := by
      have := hr'.symm.trans hw
      exact Except.ok.inj this
    -- every line is the line of its point, and is split into its columns
    have hline : ∀ (i : Nat) p s, ps[i]? = some p → ls[i]? = some s →
        Good (w.parseLayout.map columnOf) (split s w.delimiter) ∧
          ∀ {l' : PointLayout} {rec : Bytes}, Solid l' → LineRecord l' w.parseLayout (split s w.delimiter) rec →
            Recovered format w.precision p (pointOf l' rec) := by
      intro i p s h1 h2
      obtain ⟨line, h3, h4⟩ := hget i p h1
      rw [h2] at h3
      cases h3
      obtain ⟨cols, h5, rfl⟩ := pointLine_ok h4
      have hs := split_intercalate hd (columns_plain hp h5)
      apply recovered hf hp hm (points_typed hl hb (List.mem_of_getElem? h1)).2 h5
      · intro j hj
        rw [hs, if_neg (by rintro rfl; simp at hj)]
      · rw [hs]
        split
        · rename_i h; simp [h]
        · exact Nat.le_refl _
    have hmemline : ∀ line ∈ ls, Good (w.parseLayout.map columnOf) (split line w.delimiter) := by
      intro line hmem
      obtain ⟨i, hi⟩ := List.getElem?_of_mem hmem
      have hi' : i < ps.length := by rw [← hlen]; exact (List.getElem?_eq_some_iff.1 hi).1
      exact (hline i _ line (List.getElem?_eq_getElem hi') hi).1
    obtain ⟨rs, g1, g2, g3⟩ := record_shows htc htl hold
    have hroom' : rs.length = old.length := by rw [g3, List.length_map]
    generalize layout t = lt at *
    subst g2
    have htake : ls.take ps.length = ls := List.take_of_length_le (by omega)
    obtain ⟨text', news, e1, e2, e3⟩ := readLoop_ok (β := β) htl r.delimiter r.parseLayout ps.length 0 (zeros lt.size) r.rest
      ls rs hr.lines g1 (by omega) (by simp [zeros]) (blank_zeros htl _) (fun line hl' => by
        rw [hr.delimiter_eq, hts]
        exact hmemline line (List.mem_of_mem_take hl'))
    rw [htake] at e3
    have hnews : AllLen lt.size news := fun x hx => by
      obtain ⟨line, _, h⟩ := forall₂_right e3 x hx
      exact h.1
    have hall := overwrite_allLen g1 hnews 0
    refine ⟨HoldsRecords.ofRecords lt (overwrite rs 0 news), { r with rest := text' }, news.map (pointOf lt), ?_, ?_, ?_⟩
    · have hlay : BorrowedBuffer.layout (HoldsRecords.ofRecords lt rs : β) = lt := (HoldsRecords.shows htl g1).layout_eq
      show (RawAsciiReader.readLoop _ _ _ _ (UntypedPoint.new (BorrowedBuffer.layout (HoldsRecords.ofRecords lt rs : β))) _ _).bind _ = _
      rw [hlay]
      show (RawAsciiReader.readLoop _ _ _ _ (⟨lt, zeros lt.size⟩) _ _).bind _ = _
      rw [e1]
      rfl
    · have := HoldsRecords.shows (β := β) htl hall
      rwa [overwrite_map, ← g3] at this
    · apply forall₂_of_getElem (by rw [List.length_map, ← e3.length_eq, hlen])
      intro i p q h1 h2
      rw [List.getElem?_map] at h2
      obtain ⟨rec, h3, rfl⟩ := Option.map_eq_some_iff.1 h2
      have hi' : i < ls.length := by rw [hlen]; exact (List.getElem?_eq_some_iff.1 h1).1
      have h4 := List.Forall₂.get e3 hi' (by rw [← e3.length_eq]; exact hi')
      have h5 : news[i]'(by rw [← e3.length_eq]; exact hi') = rec := by
        have := List.getElem?_eq_getElem (l := news) (i := i) (by rw [← e3.length_eq]; exact hi')
        rw [h3] at this
        exact (Option.some.inj this).symm
      simp only [List.get_eq_getElem] at h4
      rw [h5, hr.delimiter_eq, hts] at h4
      exact (hline i p _ h1 (List.getElem?_eq_getElem hi')).2 htl h4

/-- **C51 in part**, the round trip into an interleaved buffer: what a fresh writer wrote can be read with the same format
    string and delimiter; it has one line per point, and reading them into a buffer with room for them gives back the
    points, as far as the format describes them: integers as they were, flags as 0 or 1, and floats rounded to the
    precision. -/
theorem C51_round_trip_interleaved_partial {γ : Type} [BorrowedBuffer γ] {b : γ} {l : PointLayout} (hl : Solid l)
    {ps : List Point} (hb : ShowsPoints b l ps) {format : List Char} (hc : 'c' ∉ format) (hu : 'u' ∉ format)
    {w : RawAsciiWriter} (hw : WriterFor format w) (hp : 1 ≤ w.precision) (hd : ClearDelimiter w.delimiter)
    (hempty : w.text = []) (hattr : ∀ d, Described format d → d ∈ l.attributes.map Member.definition) :
    ∃ w' ls, w.write b = .ok w' ∧ Lines w'.text ls ∧ ls.length = ps.length ∧
      ∀ (r : RawAsciiReader), ReaderAt format w.delimiter r ls →
        ∀ (t : VectorBuffer), Solid t.layout → VectorConsistent t → ∀ old : List Point, ShowsPoints t t.layout old →
          ps.length ≤ old.length →
          ∃ t' r' news, PointReader.readInto r t ps.length = .ok (ps.length, t', r') ∧
            ShowsPoints t' t.layout (overwrite old 0 news) ∧
            List.Forall₂ (Recovered format w.precision) ps news :=
  round_trip (β := VectorBuffer) hl hb hc hu hw hp hd hempty hattr

/-- **C51 in part**, the round trip into a columnar buffer. -/
theorem C51_round_trip_columnar_partial {γ : Type} [BorrowedBuffer γ] {b : γ} {l : PointLayout} (hl : Solid l)
    {ps : List Point} (hb : ShowsPoints b l ps) {format : List Char} (hc : 'c' ∉ format) (hu : 'u' ∉ format)
    {w : RawAsciiWriter} (hw : WriterFor format w) (hp : 1 ≤ w.precision) (hd : ClearDelimiter w.delimiter)
    (hempty : w.text = []) (hattr : ∀ d, Described format d → d ∈ l.attributes.map Member.definition) :
    ∃ w' ls, w.write b = .ok w' ∧ Lines w'.text ls ∧ ls.length = ps.length ∧
      ∀ (r : RawAsciiReader), ReaderAt format w.delimiter r ls →
        ∀ (t : HashMapBuffer), Solid t.layout → HashMapConsistent t → ∀ old : List Point, ShowsPoints t t.layout old →
          ps.length ≤ old.length →
          ∃ t' r' news, PointReader.readInto r t ps.length = .ok (ps.length, t', r') ∧
            ShowsPoints t' t.layout (overwrite old 0 news) ∧
            List.Forall₂ (Recovered format w.precision) ps news :=
  round_trip (β := HashMapBuffer) hl hb hc hu hw hp hd hempty hattr

/-- A layout and a buffer with two points for the examples. -/
def sampleLayout : PointLayout := ⟨[⟨Las.classification, 0⟩, ⟨Las.returnNumber, 1⟩], 2, 1⟩

def sampleBuffer : VectorBuffer := ⟨[6, 1, 2, 3], sampleLayout, 2⟩

/-- **C51 is violated** for `c` (and likewise for `u`): points of the classes 6 and 2 with the return numbers 1 and 3
    are written as 1 and 3. -/
theorem C51_violated :
    ∃ w w', RawAsciiWriter.fromWrite "c".toList = .ok w ∧ w.write sampleBuffer = .ok w' ∧ w'.text = "1\n3\n".toList ∧
      getAttribute sampleBuffer Las.classification 0 [0] = .ok [6] ∧
      getAttribute sampleBuffer Las.classification 1 [0] = .ok [2] := by
  refine ⟨⟨[], ", ".toList, 5, [.classification]⟩, ⟨"1\n3\n".toList, ", ".toList, 5, [.classification]⟩, rfl, ?_, rfl,
    rfl, rfl⟩
  decide +kernel

/-- **C51 is violated** for `u`, and writing `c` fails for points without return numbers. -/
theorem C51_user_data_violated :
    ∃ w, RawAsciiWriter.fromWrite "u".toList = .ok w ∧
      w.write (⟨[6, 2], ⟨[⟨Las.userData, 0⟩], 1, 1⟩, 2⟩ : VectorBuffer) = .error .err := by
  refine ⟨⟨[], ", ".toList, 5, [.userData]⟩, rfl, ?_⟩
  decide +kernel

/-- The hypotheses of the theorems above are met. -/
example : ClearDelimiter ", ".toList ∧ ClearDelimiter ";".toList ∧ WriterFor "rs".toList
    ⟨[], ", ".toList, 5, [.returnNumber, .skip]⟩ ∧ Solid sampleLayout ∧ VectorConsistent sampleBuffer ∧
    (∀ d, Described "rs".toList d → d ∈ sampleLayout.attributes.map Member.definition) := by
  refine ⟨⟨',', [' '], rfl, by decide, by decide, by decide⟩, ⟨';', [], rfl, by decide, by decide, by decide⟩, rfl,
    ⟨by decide, by decide, by decide, by decide, by decide⟩, by decide, ?_⟩
  rintro d ⟨i, c, h, rfl⟩
  rcases i with _ | _ | i
  · cases h; decide
  · cases h
  · cases h

end Pasture.Props
