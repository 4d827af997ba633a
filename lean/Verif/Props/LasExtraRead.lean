import Verif.Lemmas.LasExtra

/-!
# C81: described extra bytes are read as attributes
-/

namespace Pasture.Props

open Las BorrowedBuffer Spec PointLayout

/-- A file of point format `n` whose records end with the values the entries describe: a reader opened on it, and the
    layouts of the same format without extra bytes. -/
structure DescribedFile {σ : Type} [StoresRecords σ] (n : Nat) (exact : Bool) (f : Format) (ds : List AttrDef)
    (base raw : PointLayout) (recs : List Bytes) (r : RawReader σ) : Prop where
  plain : pointLayoutFromMetadata ⟨f, none⟩ exact = .ok base
  plainRaw : pointLayoutFromMetadata ⟨f, none⟩ true = .ok raw
  standing : Standing r recs 0
  solid : Solid r.layout
  readable : r.layout = r.recordsLayout ∨ Readable r.recordsLayout r.layout r.transforms
  /-- The layout offers the attributes of the format and then the described ones, behind one another. -/
  attributes : r.layout.attributes = base.attributes ++ membersFrom base.size ds
  size : r.layout.size = base.size + bytesOf ds
  /-- A record is read as the record without the extra bytes is, and the described values follow. -/
  values : ∀ rec, freshPoint r rec =
    readPoint raw base r.transforms (rec.take (lasRecordLength n)) (zeroPoint base) ++ valuesFrom (lasRecordLength n) ds rec

/-- The two layouts of a file whose extra bytes are described. -/
theorem described_layouts (n : Nat) (hn : n ≤ 10) (exact : Bool) (t : Transforms) {entries : List ExtraEntry}
    {ds : List AttrDef} (hd : entries.mapM extraAttribute = some ds) (h0 : 0 < bytesOf ds)
    (h16 : lasRecordLength n + bytesOf ds < 2 ^ 16) (ho : OwnNames n ds) :
    ∃ f base raw, Format.new n = .ok f ∧ pointLayoutFromMetadata ⟨f, none⟩ exact = .ok base ∧
      pointLayoutFromMetadata ⟨f, none⟩ true = .ok raw ∧ raw.size = lasRecordLength n ∧
      (f.isExtended && f.hasWaveform) = decide (9 ≤ n) ∧
      pointLayoutFromMetadata (fileWith f (bytesOf ds) (some entries)) exact = .ok (extendWith base ds) ∧
      pointLayoutFromMetadata (fileWith f (bytesOf ds) (some entries)) true = .ok (extendWith raw ds) ∧
      Solid (extendWith raw ds) ∧ Solid (extendWith base ds) ∧
      (extendWith base ds = extendWith raw ds ∨ Readable (extendWith raw ds) (extendWith base ds) t) ∧
      ∀ rec, readPoint (extendWith raw ds) (extendWith base ds) t rec (zeroPoint (extendWith base ds)) =
        readPoint raw base t (rec.take (lasRecordLength n)) (zeroPoint base) ++ valuesFrom (lasRecordLength n) ds rec := by
  obtain ⟨f, base, raw, h1, h2, h3, h4, h5, h6, h7, h8, h9⟩ := format_layouts n hn exact t
  obtain ⟨f1, l1, a1, a2, a3⟩ := described_layout n hn exact hd h0 (by omega)
  obtain ⟨f2, l2, b1, b2, b3⟩ := described_layout n hn true hd h0 (by omega)
  obtain ⟨f3, l3, _, c1, c2, _⟩ := format_layouts n hn false t
  obtain rfl : f = f1 := by rw [h1] at a1; cases a1; rfl
  obtain rfl : f = f2 := by rw [h1] at b1; cases b1; rfl
  obtain rfl : f = f3 := by rw [h1] at c1; cases c1; rfl
  obtain rfl : base = l1 := by rw [h2] at a2; cases a2; rfl
  obtain rfl : raw = l2 := by rw [h3] at b2; cases b2; rfl
  have hu := undisturbed hn h1 h3 c2 ho
  have hp : ∀ d ∈ ds, 0 < d.size := fun d h => ((extraAttributes_eq hd).2 d h).2
  have hbase : (base.attributes.map Member.name ++ ds.map AttrDef.name).Nodup := by
    cases exact with
    | false => rw [c2] at h2; cases h2; exact hu.targetNames
    | true => rw [h3] at h2; cases h2; exact hu.rawNames
  have hcase : base = raw ∧ (raw.attributes.map Member.name ++ ds.map AttrDef.name).Nodup ∨
      base ≠ raw ∧ Readable raw base t ∧ Undisturbed raw base ds := by
    cases exact with
    | true => rw [h3] at h2; cases h2; exact .inl ⟨rfl, hu.rawNames⟩
    | false =>
      rw [c2] at h2; cases h2
      by_cases he : base = raw
      · exact .inl ⟨he, hu.rawNames⟩
      · exact .inr ⟨he, h8.resolve_left he, hu⟩
  refine ⟨f, base, raw, h1, h2, h3, h4, h9, a3 hbase, b3 hu.rawNames, extend_solid h6 hp hu.rawNames,
    extend_solid h7 hp hbase, ?_, ?_⟩
  · rcases hcase with ⟨rfl, _⟩ | ⟨_, hr, hu⟩
    · exact .inl rfl
    · exact .inr (readable_extend hu hr)
  · intro rec
    rw [← h4]
    exact readPoint_extend h6 t hcase rec

/-- **C81 in part**, opening a LAS file: with entries that describe all extra bytes, under names of their own, the file
    opens, its layout has the described attributes behind those of the format, and every record is read with the
    described values. The theorems of C38 and C39 apply to the reader. -/
theorem C81_las_partial (n : Nat) (hn : n ≤ 10) (exact : Bool) (t : Transforms) (entries : List ExtraEntry)
    (ds : List AttrDef) (hd : entries.mapM extraAttribute = some ds) (h0 : 0 < bytesOf ds)
    (h16 : lasRecordLength n + bytesOf ds < 2 ^ 16) (ho : OwnNames n ds) (recs : List Bytes)
    (hlen : ∀ rec ∈ recs, rec.length = lasRecordLength n + bytesOf ds) (data : Bytes) (offset : Nat)
    (hdata : window data offset (recs.length * (lasRecordLength n + bytesOf ds)) = recs.flatten) :
    ∃ f base raw r, Format.new n = .ok f ∧
      openLas data (fileWith f (bytesOf ds) (some entries)) recs.length t offset (lasRecordLength n + bytesOf ds) exact =
        .ok r ∧ r.transforms = t ∧ DescribedFile n exact f ds base raw recs r := by
  obtain ⟨f, base, raw, h1, h2, h3, h4, _, h5, h6, h7, h8, h9, h10⟩ := described_layouts n hn exact t hd h0 h16 ho
  refine ⟨f, base, raw, ⟨⟨data, offset⟩, recs.length, t, extendWith base ds, extendWith raw ds, 0, offset,
    lasRecordLength n + bytesOf ds⟩, h1, ?_, rfl, h2, h3, ?_, h8, h9, rfl, rfl, h10⟩
  · unfold openLas RawReader.ofHeader
    rw [h5, h6]
    rfl
  · exact ⟨⟨hdata, by simp⟩, rfl, rfl, Nat.zero_le _, hlen, by show raw.size + _ = _; rw [h4], h16, h7⟩

/-- **C81 in part**, opening a LAZ file of formats 0 to 8. -/
theorem C81_laz_partial (n : Nat) (hn : n ≤ 8) (exact : Bool) (t : Transforms) (entries : List ExtraEntry)
    (ds : List AttrDef) (hd : entries.mapM extraAttribute = some ds) (h0 : 0 < bytesOf ds)
    (h16 : lasRecordLength n + bytesOf ds < 2 ^ 16) (ho : OwnNames n ds) (recs : List Bytes)
    (hlen : ∀ rec ∈ recs, rec.length = lasRecordLength n + bytesOf ds) (offset : Nat) :
    ∃ f base raw r, Format.new n = .ok f ∧
      openLaz recs (fileWith f (bytesOf ds) (some entries)) recs.length t offset (lasRecordLength n + bytesOf ds) exact =
        .ok r ∧ r.transforms = t ∧ DescribedFile n exact f ds base raw recs r := by
  obtain ⟨f, base, raw, h1, h2, h3, h4, hw, h5, h6, h7, h8, h9, h10⟩ :=
    described_layouts n (by omega) exact t hd h0 h16 ho
  refine ⟨f, base, raw, ⟨⟨lasRecordLength n + bytesOf ds, recs, 0⟩, recs.length, t, extendWith base ds,
    extendWith raw ds, 0, offset, lasRecordLength n + bytesOf ds⟩, h1, ?_, rfl, h2, h3, ?_, h8, h9, rfl, rfl, h10⟩
  · unfold openLaz
    have hw' : ((fileWith f (bytesOf ds) (some entries)).format.isExtended &&
        (fileWith f (bytesOf ds) (some entries)).format.hasWaveform) = decide (9 ≤ n) := hw
    rw [hw', decide_eq_false (by omega)]
    unfold RawReader.ofHeader
    rw [h5, h6]
    rfl
  · exact ⟨⟨⟨[], (List.append_nil _).symm⟩, rfl, rfl⟩, rfl, rfl, Nat.zero_le _, hlen, by show raw.size + _ = _; rw [h4], h16, h7⟩

/-- **C81 in part**, any sequence of reads and seeks on such a file, into buffers of either kind: what is read are the
    records asked for, each with its described values. -/
theorem C81_session_partial {n : Nat} {exact : Bool} {f : Format} {ds : List AttrDef} {base raw : PointLayout}
    {recs : List Bytes} {r : RawLasReader} (h : DescribedFile n exact f ds base raw recs r) (hn : recs.length < 2 ^ 63)
    (calls : List ReaderCall) (hs : seeksInRange recs.length 0 calls) :
    (∃ bs, runCalls VectorBuffer r calls = .ok bs ∧ List.Forall₂ (fun b part => ShowsPoints b r.layout (part.map fun rec =>
      readPoint raw base r.transforms (rec.take (lasRecordLength n)) (zeroPoint base) ++
        valuesFrom (lasRecordLength n) ds rec)) bs (partsRead recs 0 calls)) ∧
    (∃ bs, runCalls HashMapBuffer r calls = .ok bs ∧ List.Forall₂ (fun b part => ShowsPoints b r.layout (part.map fun rec =>
      readPoint raw base r.transforms (rec.take (lasRecordLength n)) (zeroPoint base) ++
        valuesFrom (lasRecordLength n) ds rec)) bs (partsRead recs 0 calls)) := by
  have e : (fun rec => readPoint raw base r.transforms (rec.take (lasRecordLength n)) (zeroPoint base) ++
      valuesFrom (lasRecordLength n) ds rec) = freshPoint r := funext fun rec => (h.values rec).symm
  rw [e]
  exact C38_las_session_partial r recs 0 h.standing h.solid h.readable hn calls hs

/-- The same for LAZ files. -/
theorem C81_laz_session_partial {n : Nat} {exact : Bool} {f : Format} {ds : List AttrDef} {base raw : PointLayout}
    {recs : List Bytes} {r : RawLazReader} (h : DescribedFile n exact f ds base raw recs r) (hn : recs.length < 2 ^ 63)
    (calls : List ReaderCall) (hs : seeksInRange recs.length 0 calls) :
    (∃ bs, runCalls VectorBuffer r calls = .ok bs ∧ List.Forall₂ (fun b part => ShowsPoints b r.layout (part.map fun rec =>
      readPoint raw base r.transforms (rec.take (lasRecordLength n)) (zeroPoint base) ++
        valuesFrom (lasRecordLength n) ds rec)) bs (partsRead recs 0 calls)) ∧
    (∃ bs, runCalls HashMapBuffer r calls = .ok bs ∧ List.Forall₂ (fun b part => ShowsPoints b r.layout (part.map fun rec =>
      readPoint raw base r.transforms (rec.take (lasRecordLength n)) (zeroPoint base) ++
        valuesFrom (lasRecordLength n) ds rec)) bs (partsRead recs 0 calls)) := by
  have e : (fun rec => readPoint raw base r.transforms (rec.take (lasRecordLength n)) (zeroPoint base) ++
      valuesFrom (lasRecordLength n) ds rec) = freshPoint r := funext fun rec => (h.values rec).symm
  rw [e]
  exact C38_laz_session_partial r recs 0 h.standing h.solid h.readable hn calls hs

/-! ## Names that are taken -/

theorem addPacked_clash {l : PointLayout} (h : EndsTight l) (ds : List AttrDef)
    (hd : ∀ d ∈ ds, 1 ≤ d.datatype.minAlignment) (hn : ¬ (l.attributes.map Member.name ++ ds.map AttrDef.name).Nodup)
    (hl : (l.attributes.map Member.name).Nodup) (hs : l.size + (ds.map AttrDef.size).sum + 1 ≤ 2 ^ 63) :
    addPacked l ds = panicked := by
  induction ds generalizing l with
  | nil => rw [List.map_nil, List.append_nil] at hn; exact absurd hl hn
  | cons d ds ih =>
    simp only [List.map_cons, List.sum_cons] at hn hs ⊢
    unfold addPacked
    rw [forLoop_cons]
    by_cases hc : d.name ∈ l.attributes.map Member.name
    · have : l.addAttribute d (.packed 1) = panicked := by
        unfold addAttribute
        rw [if_pos]
        unfold getAttributeByName
        rw [List.find?_isSome]
        obtain ⟨m, hm, he⟩ := List.mem_map.1 hc
        exact ⟨m, hm, by simp [he]⟩
      rw [this]
      rfl
    · obtain ⟨l1, h1, h2, h3, h4⟩ := add_tight h d (hd d (by simp)) hc (by omega)
      rw [h1]
      refine ih h2 (fun d hd' => hd d (by simp [hd'])) ?_ ?_ (by rw [h3]; omega)
      · rw [h4, List.map_append, List.append_assoc]
        exact hn
      · rw [h4, List.map_append]
        exact List.nodup_append.2 ⟨hl, by simp, by
          intro a ha b hb he
          subst he
          simp only [List.map_cons, List.map_nil, List.mem_singleton] at hb
          subst hb
          exact hc ha⟩

/-- The part of C81 that does not hold: if two entries have the same name, or an entry has the name of an attribute of
    the format, opening the file panics, whatever else it contains. -/
theorem C81_clash_violated (n : Nat) (hn : n ≤ 10) (exact : Bool) (t : Transforms) (entries : List ExtraEntry)
    (ds : List AttrDef) (hd : entries.mapM extraAttribute = some ds) (h0 : 0 < bytesOf ds) (h16 : bytesOf ds < 2 ^ 16)
    (data : Bytes) (count offset size : Nat) :
    ∃ f base, Format.new n = .ok f ∧ pointLayoutFromMetadata ⟨f, none⟩ exact = .ok base ∧
      (¬ (base.attributes.map Member.name ++ ds.map AttrDef.name).Nodup →
        openLas data (fileWith f (bytesOf ds) (some entries)) count t offset size exact = .error .panic) := by
  obtain ⟨f, base, h1, h2, h3, h4, h5⟩ := base_tight n hn exact
  obtain ⟨f', base', g1, g2, _⟩ := described_layout n hn exact hd h0 h16
  obtain rfl : f = f' := by rw [h1] at g1; cases g1; rfl
  obtain ⟨e1, e2⟩ := extraAttributes_eq hd
  have hx : f.extraBytes = 0 := by
    unfold Format.new at h1
    rw [if_neg (by omega)] at h1
    injection h1 with h1
    rw [← h1]
  have hbase : pointLayoutFromMetadata ⟨f, none⟩ exact = .ok base := by
    unfold pointLayoutFromMetadata
    rw [h2]
    show (if f.extraBytes = 0 then _ else _) = _
    rw [if_pos hx]
    rfl
  refine ⟨f, base, h1, hbase, ?_⟩
  intro hc
  have ha := addPacked_clash h3 ds (fun d h => (e2 d h).1) hc h5 (by unfold bytesOf at h16; omega)
  have hp : pointLayoutFromMetadata (fileWith f (bytesOf ds) (some entries)) exact = panicked := by
    unfold pointLayoutFromMetadata fileWith
    dsimp only
    have hb : pointLayoutFromFormat { f with extraBytes := bytesOf ds } exact = .ok base := h2
    rw [hb]
    show (if bytesOf ds = 0 then _ else _) = _
    rw [if_neg (by omega)]
    show (entries.mapM ExtraEntry.getPointAttribute).bind _ = _
    rw [e1]
    show (addPacked base ds).bind _ = _
    rw [ha]
    rfl
  unfold openLas RawReader.ofHeader
  rw [hp]
  rfl

/-! ## Concrete cases -/

/-- An entry with a name and a type, and nothing else of interest. -/
def entryOf (name : String) (ty : ExtraType) : ExtraEntry := ⟨ty, 0, name, 0, 0, "", [], [], []⟩

/-- A height as f32 and a byte, in a file of format 3. -/
example : [entryOf "Height" .f32, entryOf "Quality" .u8].mapM extraAttribute = some [⟨"Height", .f32⟩, ⟨"Quality", .u8⟩] ∧
    bytesOf [⟨"Height", .f32⟩, ⟨"Quality", .u8⟩] = 5 ∧ OwnNames 3 [⟨"Height", .f32⟩, ⟨"Quality", .u8⟩] := by
  decide +kernel

example : valuesFrom (lasRecordLength 0) [⟨"Height", .f32⟩, ⟨"Quality", .u8⟩] (List.replicate 20 0 ++ [1, 2, 3, 4, 5]) =
    [(⟨"Height", .f32⟩, [1, 2, 3, 4]), (⟨"Quality", .u8⟩, [5])] := by decide +kernel

/-- "Intensity" is a name of every format. -/
example : ∃ f base, Format.new 0 = .ok f ∧ pointLayoutFromMetadata ⟨f, none⟩ false = .ok base ∧
    ¬ (base.attributes.map Member.name ++ [AttrDef.mk "Intensity" .u16].map AttrDef.name).Nodup :=
  ⟨_, _, rfl, rfl, by decide +kernel⟩

/-- A record of format 6 whose return number is 2, of 3 returns, and whose extra byte is 0. -/
def flaggedRecord : Bytes := List.replicate 14 0 ++ [0x32, 0] ++ List.replicate 14 0 ++ [0]

/-- Opens the file with that record and an extra byte of the given name, reads the record, and returns where the return
    number and the number of returns are, and their values. -/
def flagsRead (name : String) : Out (Option Member × Option Member × Bytes × Bytes) := do
  let f ← Format.new 6
  let axis : Axis := ⟨⟨false, 0⟩, ⟨false, 0⟩⟩
  let r ← openLas flaggedRecord (fileWith f 1 (some [entryOf name .u8])) 1 ⟨axis, axis, axis⟩ 0 31 false
  let (b, _) ← readPoints VectorBuffer r 1
  let point ← InterleavedBuffer.getPointRef b 0
  pure (r.layout.attributes[2]?, r.layout.attributes[3]?, window point 26 1, window point 27 1)

/-- The part of C81 that does not hold: in a file of format 6 an extra byte named `LASBasicFlags` takes the place of the
    flags of the record. Return number 2 of 3 is read as 0 of 0; with an extra byte of another name it is 2 of 3. -/
theorem C81_flags_violated :
    flagsRead "LASBasicFlags" = .ok (some ⟨⟨"ReturnNumber", .u8⟩, 26⟩, some ⟨⟨"NumberOfReturns", .u8⟩, 27⟩, [0], [0]) ∧
    flagsRead "Quality" = .ok (some ⟨⟨"ReturnNumber", .u8⟩, 26⟩, some ⟨⟨"NumberOfReturns", .u8⟩, 27⟩, [2], [3]) := by
  decide +kernel

end Pasture.Props
