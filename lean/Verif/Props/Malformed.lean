import Verif.Lemmas.Malformed
import Verif.Lemmas.PntsCodec
import Verif.Props.PntsFiles

/-!
# C92: files that are not as they should be
-/

namespace Pasture.Props

open Spec Spec.Pnts Tiles3d Las PntsReader BorrowedBuffer BorrowedMutBuffer OwningBuffer

section
variable {J : JsonText} {file : Bytes}

theorem offsets_small {r : PntsReader} (h : OpenFile J file r) :
    (r.attributeOffsets.all fun e => decide (e.2 < 2 ^ 64)) = true ↔
      ∀ s ∈ semantics, ∀ o, columnStart J file s.1 = some o → o < 2 ^ 64 := by
  rw [h.offsets, List.all_reverse, List.all_eq_true]
  constructor
  · intro hs s h1 o h2
    have := hs (s.2.name, o) (List.mem_filterMap.2 ⟨s, h1, by rw [h2]; rfl⟩)
    simpa using this
  · rintro hs e he
    obtain ⟨s, h1, h2⟩ := List.mem_filterMap.1 he
    cases hc : columnStart J file s.1 with
    | none => rw [hc] at h2; cases h2
    | some o =>
      rw [hc] at h2
      cases h2
      simpa using hs s h1 o hc

theorem header_start (J : JsonText) (file : Bytes) :
    CheckedPnts.fromRead J file 0 = (fromRead J file).bind fun r =>
      if r.attributeOffsets.all fun e => decide (e.2 < 2 ^ 64) then .ok ⟨r⟩ else panicked := by
  unfold CheckedPnts.fromRead
  rw [List.drop_zero]
  cases hh : PntsHeader.read file with
  | error e =>
    unfold fromRead
    rw [hh]
    rfl
  | ok header =>
    by_cases hm : header.magic = magicBytes
    · have hb : bailIf (decide (header.magic ≠ magicBytes)) = .ok () := by
        rw [decide_eq_false (by simpa using hm)]; rfl
      simp only [bind, Except.bind, hb]
      rfl
    · have hb : bailIf (decide (header.magic ≠ magicBytes)) = .error .err := by
        rw [decide_eq_true (by simpa using hm)]; rfl
      unfold fromRead
      simp only [hh, bind, Except.bind, hb]

/-- **C92, opening**: whatever bytes a `.pnts` file consists of, opening it from its beginning returns: a reader or an error.
    Missing is what fails: files with an offset so large that its sum with the size of the tables does not fit 64 bits
    (`C92_offset_violated`), and streams that do not stand at their beginning (`C92_position_violated`). -/
theorem C92_open_partial (J : JsonText) (file : Bytes)
    (hs : ∀ s ∈ semantics, ∀ o, columnStart J file s.1 = some o → o < 2 ^ 64) :
    Returns (CheckedPnts.fromRead J file 0) := by
  rw [header_start]
  rcases returns_fromRead J file with ⟨r, h⟩ | h
  · rw [h]
    show Returns (if _ then _ else _)
    rw [if_pos ((offsets_small (open_any h)).2 hs)]
    exact returns_ok _
  · rw [h]
    exact returns_err

/-- When opening a file panics. -/
theorem C92_open_panics (J : JsonText) (file : Bytes) :
    CheckedPnts.fromRead J file 0 = .error .panic ↔
      (∃ r, fromRead J file = .ok r) ∧ ∃ s ∈ semantics, ∃ o, columnStart J file s.1 = some o ∧ 2 ^ 64 ≤ o := by
  rw [header_start]
  rcases returns_fromRead J file with ⟨r, h⟩ | h
  · rw [h]
    have hiff := offsets_small (open_any h)
    show (if _ then _ else _) = _ ↔ _
    by_cases hs : ∀ s ∈ semantics, ∀ o, columnStart J file s.1 = some o → o < 2 ^ 64
    · rw [if_pos (hiff.2 hs)]
      constructor
      · intro h; cases h
      · rintro ⟨_, s, h1, o, h2, h3⟩
        have := hs s h1 o h2
        omega
    · rw [if_neg (fun hc => hs (hiff.1 hc))]
      constructor
      · intro _
        refine ⟨⟨r, rfl⟩, ?_⟩
        apply Classical.byContradiction
        intro hn
        apply hs
        intro s h1 o h2
        apply Decidable.byContradiction
        intro h3
        exact hn ⟨s, h1, o, h2, by omega⟩
      · intro _; rfl
  · rw [h]
    constructor
    · intro h; cases h
    · rintro ⟨⟨r, h⟩, _⟩; cases h

theorem metadata_count {t : FeatureTable} {md : PntsMetadata} (h : metadataFromFeatureTable t = .ok md) :
    ∃ v, t.lookup "POINTS_LENGTH" = some (.single v) ∧ v.asU64 = some md.pointsLength := by
  unfold metadataFromFeatureTable integerEntry at h
  cases hl : t.lookup "POINTS_LENGTH" with
  | none => simp only [hl] at h; cases h
  | some w =>
    cases w with
    | array vs => simp only [hl] at h; cases h
    | reference o c => simp only [hl] at h; cases h
    | single v =>
      simp only [hl] at h
      cases hv : v.asU64 with
      | none => simp only [hv] at h; cases h
      | some n =>
        refine ⟨v, rfl, ?_⟩
        simp only [hv, orErr, bind, Except.bind, pure, Except.pure] at h
        repeat' split at h
        all_goals first | (cases h; exact hv) | cases h

/-- **C92, files that are refused**: files that are too short for their header or for the tables the header announces, files
    of another kind, and files without a feature table or a number of points are refused with an error. -/
theorem C92_refuses (h : Unreadable J file) : CheckedPnts.fromRead J file 0 = .error .err := by
  rw [header_start]
  rcases returns_fromRead J file with ⟨r, hr⟩ | hr
  · exfalso
    obtain ⟨t, l, offs, h1, h2, h3, _, h5, _⟩ := open_parts hr
    rcases h with h | h | h | h | ⟨es, h, hz⟩
    · omega
    · exact h h2
    · omega
    · obtain ⟨es, e1, _⟩ := table_entries h1 h3
      rw [e1] at h
      cases h
    · obtain ⟨es', e1, e2⟩ := table_entries h1 h3
      rw [e1] at h
      cases h
      obtain ⟨v, v1, v2⟩ := metadata_count h5
      rcases entries_lookup e2 "POINTS_LENGTH" with ⟨_, g⟩ | ⟨w, x, g1, g2, g3⟩
      · rw [v1] at g; cases g
      · rw [v1] at g3
        cases g3
        have hw : w = v := by
          unfold FeatureValue.ofJson at g2
          split at g2
          · cases g2
          · split at g2
            · obtain ⟨_, _, c, hc⟩ := reference_offset g2
              cases hc
            · cases g2; rfl
          · cases g2; rfl
        subst hw
        cases w with
        | int z =>
          by_cases hz0 : 0 ≤ z
          · obtain ⟨m, rfl⟩ := Int.eq_ofNat_of_zero_le hz0
            exact hz m g1
          · simp only [Json.asU64, if_neg hz0] at v2
            cases v2
        | null => cases v2
        | bool b => cases v2
        | float b => cases v2
        | string b => cases v2
        | array b => cases v2
        | object b => cases v2
  · rw [hr]
    rfl

/-! ## Reading -/

/-- The reader `c`, at point `i`, in the given mode. -/
def standing (c : CheckedPnts) (i : Nat) (mode : PositionsMode) : CheckedPnts :=
  ⟨{ c.reader with currentPointIndex := i, mode := mode }⟩

/-- It is what `seek_point` and `set_read_positions_mode` lead to. -/
theorem standing_reached (c : CheckedPnts) {i : Nat} (hi : i ≤ c.reader.metadata.pointsLength) (mode : PositionsMode) :
    (c.setMode mode).seekPoint (.start i) = .ok (i, standing c i mode) := by
  unfold CheckedPnts.seekPoint PntsReader.seekPoint CheckedPnts.setMode PntsReader.setMode standing
  simp only [bind, Except.bind, pure, Except.pure]
  rw [Nat.min_eq_left hi]

theorem checked_opened {c : CheckedPnts} (h : CheckedPnts.fromRead J file 0 = .ok c) :
    fromRead J file = .ok c.reader ∧ ∀ s ∈ semantics, ∀ o, columnStart J file s.1 = some o → o < 2 ^ 64 := by
  rw [header_start] at h
  rcases returns_fromRead J file with ⟨r, hr⟩ | hr
  · rw [hr] at h
    change (if _ then _ else _) = _ at h
    split at h
    · rename_i hs
      cases h
      exact ⟨hr, (offsets_small (open_any hr)).1 hs⟩
    · cases h
  · rw [hr] at h
    cases h

/-- Without overflow the checked reader reads as the other one. -/
theorem checked_read {β : Type} [BorrowedMutBuffer β] (c : CheckedPnts) (b : β) (count : Nat)
    (h : ∀ m ∈ c.reader.layout.attributes, ∃ o, c.reader.attributeOffsets.lookup m.name = some o ∧
      o + c.reader.currentPointIndex * m.size < 2 ^ 64) :
    c.readInto b count = (c.reader.readInto b count).map fun x => (x.1, x.2.1, ⟨x.2.2⟩) := by
  unfold CheckedPnts.readInto PntsReader.readInto
  dsimp only
  generalize min (c.reader.metadata.pointsLength - c.reader.currentPointIndex) count = n
  have hloop : forLoop c.reader.layout.attributes b (CheckedPnts.readAttribute c.reader (BorrowedBuffer.layout b) n) =
      forLoop c.reader.layout.attributes b (c.reader.readAttribute (BorrowedBuffer.layout b) n) := by
    apply forLoop_congr
    intro m hm s
    obtain ⟨o, h1, h2⟩ := h m hm
    unfold CheckedPnts.readAttribute
    cases hg : (BorrowedBuffer.layout b).getAttributeByName m.name with
    | none =>
      unfold PntsReader.readAttribute
      rw [hg]
    | some dst =>
      simp only [h1, expectSome, bind, Except.bind, if_pos h2]
  rw [hloop]
  cases bailIf (decide (n = 0)) with
  | error e => rfl
  | ok u =>
    show Except.bind _ _ = Except.map _ (Except.bind _ _)
    cases forLoop c.reader.layout.attributes b (c.reader.readAttribute (BorrowedBuffer.layout b) n) with
    | error e => rfl
    | ok b' =>
      simp only [bind, Except.bind]
      by_cases hm : c.reader.mode = .absolute
      · rw [if_pos hm, if_pos hm]
        generalize PntsReader.applyRtcCenter _ b' = x
        cases x <;> rfl
      · rw [if_neg hm, if_neg hm]
        rfl

theorem read_anyFile {β : Type} [OwningBuffer β] [MakeBufferFromLayout β] [MakesRecords β] [AsMemoryMut β]
    (hlay : ∀ n, layout (OwningBuffer.resize (MakeBufferFromLayout.newFromLayout PointLayout.default : β) n) =
      PointLayout.default)
    {c : CheckedPnts} (h : CheckedPnts.fromRead J file 0 = .ok c) (i : Nat) (mode : PositionsMode) (n : Nat)
    (hs : ∀ s ∈ semantics, ∀ o, columnStart J file s.1 = some o → o + i * s.2.size < 2 ^ 64) :
    (∃ (b : β) (c' : CheckedPnts), readPoints β (standing c i mode) n = .ok (b, c') ∧
        ∀ s ∈ semantics, ∀ o, columnStart J file s.1 = some o →
          o + (i + min (c.reader.metadata.pointsLength - i) n) * s.2.size ≤ file.length) ∨
      readPoints β (standing c i mode) n = .error .err := by
  obtain ⟨hr, _⟩ := checked_opened h
  have ho := open_any hr
  have hread : ∀ b : β, (standing c i mode).readInto b n = ((standing c i mode).reader.readInto b n).map
      fun x => (x.1, x.2.1, ⟨x.2.2⟩) := by
    intro b
    apply checked_read
    intro m hm
    obtain ⟨s, s1, s2, o, o1, o2⟩ := ho.member (r := c.reader) hm
    refine ⟨o, o2, ?_⟩
    show o + i * m.definition.size < _
    rw [s2]
    exact hs s s1 o o1
  unfold readPoints
  show (∃ b c', ((standing c i mode).readInto _ n).bind _ = _ ∧ _) ∨ ((standing c i mode).readInto _ n).bind _ = _
  rw [hread]
  show (∃ b c', ((({ c.reader with currentPointIndex := i, mode := mode } : PntsReader).readInto
    (OwningBuffer.resize (MakeBufferFromLayout.newFromLayout c.reader.layout : β) n) n).map _).bind _ = _ ∧ _) ∨
    ((({ c.reader with currentPointIndex := i, mode := mode } : PntsReader).readInto
    (OwningBuffer.resize (MakeBufferFromLayout.newFromLayout c.reader.layout : β) n) n).map _).bind _ = _
  by_cases hne : c.reader.layout.attributes = []
  · have hb := ho.bare hne
    have hnone : ∀ s ∈ semantics, columnStart J file s.1 = none := by
      intro s hs
      cases hc : columnStart J file s.1 with
      | none => rfl
      | some o =>
        obtain ⟨m, hm, _⟩ := ho.has hs hc
        rw [hne] at hm
        cases hm
    by_cases hz : i < c.reader.metadata.pointsLength ∧ 0 < n
    · obtain ⟨r', h1, _⟩ := bare_read (r := ({ c.reader with currentPointIndex := i, mode := mode } : PntsReader)) hb hz.1 hz.2
      left
      refine ⟨OwningBuffer.resize (OwningBuffer.resize (MakeBufferFromLayout.newFromLayout c.reader.layout : β) n)
        (min (c.reader.metadata.pointsLength - i) n), ⟨r'⟩, ?_, fun s hs o hc => absurd hc (by rw [hnone s hs]; simp)⟩
      · rw [show ({ c.reader with currentPointIndex := i, mode := mode } : PntsReader).readInto
          (OwningBuffer.resize (MakeBufferFromLayout.newFromLayout c.reader.layout : β) n) n = _ from h1 _ (by
            rw [hb]; exact hlay n)]
        rfl
    · right
      unfold PntsReader.readInto
      dsimp only
      rw [show bailIf (decide (min (c.reader.metadata.pointsLength - i) n = 0)) = .error .err by
        rw [decide_eq_true (by omega)]; rfl]
      rfl
  · have hl := ho.solid hne
    rw [new_resized hl]
    rcases readInto_any (β := β) (rs := List.replicate n (List.replicate c.reader.layout.size 0)) ho hl i mode
      (AllLen.replicate (by simp) n) n (by simp) with ⟨rs', r', e, _, hfit⟩ | e
    · left
      rw [e]
      exact ⟨_, _, rfl, hfit⟩
    · right
      rw [e]
      rfl

/-- **C92, reading, interleaved buffers**: from whatever file was opened, reading any number of points anywhere returns:
    points or an error. Missing is what fails: positions whose byte offset does not fit 64 bits (`C92_index_violated`). -/
theorem C92_read_interleaved_partial {c : CheckedPnts} (h : CheckedPnts.fromRead J file 0 = .ok c) (i : Nat)
    (mode : PositionsMode) (n : Nat)
    (hs : ∀ s ∈ semantics, ∀ o, columnStart J file s.1 = some o → o + i * s.2.size < 2 ^ 64) :
    Returns (readPoints VectorBuffer (standing c i mode) n) := by
  rcases read_anyFile (β := VectorBuffer) (fun _ => rfl) h i mode n hs with ⟨b, c', e, _⟩ | e
  · exact .inl ⟨_, e⟩
  · exact .inr e

/-- **C92, reading, columnar buffers**. -/
theorem C92_read_columnar_partial {c : CheckedPnts} (h : CheckedPnts.fromRead J file 0 = .ok c) (i : Nat)
    (mode : PositionsMode) (n : Nat)
    (hs : ∀ s ∈ semantics, ∀ o, columnStart J file s.1 = some o → o + i * s.2.size < 2 ^ 64) :
    Returns (readPoints HashMapBuffer (standing c i mode) n) := by
  rcases read_anyFile (β := HashMapBuffer) (fun _ => rfl) h i mode n hs with ⟨b, c', e, _⟩ | e
  · exact .inl ⟨_, e⟩
  · exact .inr e

/-- **C92, truncated files**: if one of the values to be read is behind the end of the file, the read is an error. -/
theorem C92_truncated {c : CheckedPnts} (h : CheckedPnts.fromRead J file 0 = .ok c) (i : Nat)
    (mode : PositionsMode) (n : Nat)
    (hs : ∀ s ∈ semantics, ∀ o, columnStart J file s.1 = some o → o + i * s.2.size < 2 ^ 64)
    {s : String × AttrDef} (hsem : s ∈ semantics) {o : Nat} (ho : columnStart J file s.1 = some o)
    (hend : file.length < o + (i + min (c.reader.metadata.pointsLength - i) n) * s.2.size) :
    readPoints VectorBuffer (standing c i mode) n = .error .err ∧
      readPoints HashMapBuffer (standing c i mode) n = .error .err := by
  constructor
  · rcases read_anyFile (β := VectorBuffer) (fun _ => rfl) h i mode n hs with ⟨b, c', e, hf⟩ | e
    · have := hf s hsem o ho
      omega
    · exact e
  · rcases read_anyFile (β := HashMapBuffer) (fun _ => rfl) h i mode n hs with ⟨b, c', e, hf⟩ | e
    · have := hf s hsem o ho
      omega
    · exact e

theorem window_parts (b : Bytes) (o z : Nat) : ∀ n,
    ((List.range n).map fun k => window b (o + k * z) z).flatten = window b o (n * z) := by
  intro n
  induction n with
  | zero => simp [window]
  | succ n ih =>
    rw [List.range_succ, List.map_append, List.flatten_append, ih, Nat.succ_mul]
    unfold window
    rw [List.take_add, List.drop_drop]
    simp

/-- **C92, complete files**: if the values that the table announces are all in the file, the reader gives them: everything that
    the theorems on readers of `.pnts` files say (C39, C55, C56) holds for the points `pointsOf J file n`. -/
theorem C92_complete {c : CheckedPnts} (h : CheckedPnts.fromRead J file 0 = .ok c)
    (hc : Complete J file c.reader.metadata.pointsLength)
    (hne : ∃ s ∈ semantics, ∃ o, columnStart J file s.1 = some o) :
    Opened c.reader (pointsOf J file c.reader.metadata.pointsLength) c.reader.metadata.rtcCenter 0 := by
  obtain ⟨hr, _⟩ := checked_opened h
  have ho := open_any hr
  obtain ⟨s₀, hs₀, o₀, ho₀⟩ := hne
  have hsolid : Solid c.reader.layout := ho.solid (by
    obtain ⟨m, hm, _⟩ := ho.has hs₀ ho₀
    intro he
    rw [he] at hm
    cases hm)
  have hkeys : ∀ k : Nat, (semantics.filterMap fun s => (columnStart J file s.1).map fun o =>
      (s.2, window file (o + k * s.2.size) s.2.size)).map Prod.fst = c.reader.layout.attributes.map Member.definition := by
    intro k
    rw [ho.definitions, List.map_filterMap]
    congr 1
    funext s
    cases columnStart J file s.1 <;> rfl
  refine ⟨ho.index, Nat.zero_le _, ?_, rfl, hsolid, ?_, ?_, ?_⟩
  · simp [pointsOf]
  · intro p hp
    obtain ⟨k, _, rfl⟩ := List.mem_map.1 hp
    exact hkeys k
  · intro p hp kv hkv
    obtain ⟨k, hk, rfl⟩ := List.mem_map.1 hp
    have hk := List.mem_range.1 hk
    obtain ⟨s, hs, he⟩ := List.mem_filterMap.1 hkv
    cases hcs : columnStart J file s.1 with
    | none => rw [hcs] at he; cases he
    | some o =>
      rw [hcs] at he
      cases he
      have h1 := hc s hs o hcs
      have h2 : (k + 1) * s.2.size ≤ c.reader.metadata.pointsLength * s.2.size := Nat.mul_le_mul_right _ hk
      rw [Nat.succ_mul] at h2
      show (window file (o + k * s.2.size) s.2.size).length = s.2.size
      unfold window
      rw [List.length_take, List.length_drop]
      omega
  · intro m hm
    obtain ⟨s, hs, he, o, o1, o2⟩ := ho.member hm
    refine ⟨o, o2, ?_⟩
    have hget : ∀ k : Nat, Point.get (semantics.filterMap fun s => (columnStart J file s.1).map fun o =>
        (s.2, window file (o + k * s.2.size) s.2.size)) m.definition = some (window file (o + k * m.size) m.size) := by
      intro k
      unfold Point.get
      apply lookup_of_mem
      · rw [hkeys]
        exact defs_nodup hsolid
      · rw [List.mem_filterMap]
        refine ⟨s, hs, ?_⟩
        rw [o1]
        show some (s.2, window file (o + k * s.2.size) s.2.size) = some (m.definition, window file (o + k * m.definition.size)
          m.definition.size)
        rw [he]
    rw [ho.data]
    unfold columnOf pointsOf
    rw [List.filterMap_map, List.length_map, List.length_range]
    rw [show ((fun p => Point.get p m.definition) ∘ fun k => semantics.filterMap fun s =>
        (columnStart J file s.1).map fun o => (s.2, window file (o + k * s.2.size) s.2.size)) =
      fun k => some (window file (o + k * m.size) m.size) from funext hget]
    rw [← window_parts, List.filterMap_eq_map']

end

/-! ## Other formats of 3D Tiles -/

/-- **C92, tilesets**: whatever the text is, reading a tileset from it returns. -/
theorem C92_tileset (J : JsonText) (text : Bytes) : Returns (RootTileset.read J text) :=
  returns_bind (returns_orErr _) fun _ _ => returns_root _

/-- **C92, batch tables**: whatever the bytes are, reading a batch table from them returns. -/
theorem C92_batch_table (J : JsonText) (data : Bytes) (pos size start : Nat) :
    Returns (readBatchTable J data pos size start) := by
  refine returns_bind (returns_jsonHeader _ _ _ _) fun v _ => ?_
  split
  · exact returns_bind (returns_mapM _ fun _ _ => returns_bind (returns_batchEntry _) fun _ _ => returns_pure _) fun _ _ =>
      returns_pure _
  · exact returns_err

/-- **C92, feature tables**. -/
theorem C92_feature_table (J : JsonText) (data : Bytes) (pos size : Nat) : Returns (readFeatureTable J data pos size) :=
  returns_featureTable J data pos size

/-! ## What fails -/

/-- A file with a header, the feature table `j` and some bytes behind it. -/
def pntsWith (j : Json) (body : Bytes) : Bytes :=
  PntsHeader.bytes ⟨magicBytes, 1, 28 + (Codec.ser j).length + body.length, (Codec.ser j).length, body.length, 0, 0⟩ ++
    (Codec.ser j ++ body)

/-- The table of a file with `n` points whose positions are stored at `offset`. -/
def tableWith (n offset : Nat) : Json :=
  .object [("POINTS_LENGTH", .int n), ("POSITION", .object [("byteOffset", .int offset)])]

theorem tableWith_valid {n offset : Nat} (hn : n < 2 ^ 64) (ho : offset < 2 ^ 64) : Valid (tableWith n offset) := by
  refine .object _ (by simp) ?_
  intro e he
  rcases List.mem_cons.1 he with rfl | he
  · exact .int _ (by omega) (by omega)
  · rcases List.mem_cons.1 he with rfl | he
    · refine .object _ (by simp) ?_
      intro e he
      rcases List.mem_cons.1 he with rfl | he
      · exact .int _ (by omega) (by omega)
      · cases he
    · cases he

theorem open_with {n offset : Nat} {body : Bytes} (hn : n < 2 ^ 64) (ho : offset < 2 ^ 64) {L : Nat} {header : PntsHeader}
    (h1 : PntsHeader.read (pntsWith (tableWith n offset) body) = .ok header) (h2 : header.magic = magicBytes)
    (h3 : header.featureTableJson = L)
    (h4 : readAt (pntsWith (tableWith n offset) body) 28 L = .ok (Codec.ser (tableWith n offset))) :
    ∃ l, PointLayout.addAttribute PointLayout.default ⟨"Position3D", .vec3f32⟩ (.packed 1) = .ok l ∧
      fromRead Codec.codec (pntsWith (tableWith n offset) body) = .ok ⟨pntsWith (tableWith n offset) body,
        ⟨n, none, none, none, none, none⟩, l, 0, [("Position3D", offset + (28 + L))], .absolute⟩ := by
  refine ⟨_, rfl, ?_⟩
  have hb : bailIf (decide (header.magic ≠ magicBytes)) = .ok () := by
    rw [decide_eq_false (by simpa using h2)]; rfl
  have ht := Codec.codec_reads (tableWith_valid hn ho) (by simp [depth, depthEntries, tableWith]) 0
  rw [List.replicate_zero, List.append_nil] at ht
  have hj : readJsonHeader Codec.codec (pntsWith (tableWith n offset) body) headerLength L = .ok (tableWith n offset) := by
    unfold readJsonHeader headerLength
    rw [h4]
    show orErr (Codec.codec.fromText (Codec.ser (tableWith n offset))) = _
    rw [ht]
    rfl
  have hf : readFeatureTable Codec.codec (pntsWith (tableWith n offset) body) headerLength L =
      .ok [("POINTS_LENGTH", .single (.int n)), ("POSITION", .reference offset none)] := by
    unfold readFeatureTable
    rw [hj]
    rfl
  unfold fromRead
  simp only [h1, bind, Except.bind, hb, h3, hf]
  rfl

/-- The file whose only point is stored at the last possible offset. -/
def farFile : Bytes := pntsWith (tableWith 1 (2 ^ 64 - 1)) []

/-- A short file that claims to have 2⁶³ points. -/
def hugeFile : Bytes := pntsWith (tableWith (2 ^ 63) 0) (List.replicate 24 7)

theorem open_far : ∃ r, fromRead Codec.codec farFile = .ok r ∧ r.attributeOffsets.all (fun e => decide (e.2 < 2 ^ 64)) = false := by
  obtain ⟨l, _, h⟩ := open_with (n := 1) (offset := 2 ^ 64 - 1) (body := []) (by decide) (by decide)
    (L := (Codec.ser (tableWith 1 (2 ^ 64 - 1))).length) rfl (by decide +kernel) (by decide +kernel) (by decide +kernel)
  exact ⟨_, h, by simp; omega⟩

/-- **C92, offsets**: the claim is false for a file with one point at offset 2⁶⁴ - 1: the sum of the offset and the size of the
    tables overflows, and opening the file panics. -/
theorem C92_offset_violated : ∃ file : Bytes, CheckedPnts.fromRead Codec.codec file 0 = .error .panic := by
  refine ⟨farFile, ?_⟩
  rw [header_start]
  obtain ⟨r, h1, h2⟩ := open_far
  rw [h1]
  show (if _ then _ else _) = _
  rw [if_neg (by rw [h2]; simp)]
  rfl

/-- **C92, streams**: the claim is false for every `.pnts` file that is not at the beginning of its stream: a stream with other
    bytes before the file, standing where the file begins, makes the reader panic. -/
theorem C92_position_violated (J : JsonText) {file : Bytes} {c : CheckedPnts}
    (h : CheckedPnts.fromRead J file 0 = .ok c) {before : Bytes} (hb : before ≠ []) :
    CheckedPnts.fromRead J (before ++ file) before.length = .error .panic := by
  unfold CheckedPnts.fromRead at h ⊢
  rw [List.drop_zero] at h
  rw [List.drop_left]
  cases hh : PntsHeader.read file with
  | error e => rw [hh] at h; cases h
  | ok header =>
    rw [hh] at h
    simp only [bind, Except.bind] at h ⊢
    cases hm : bailIf (decide (header.magic ≠ magicBytes)) with
    | error e => rw [hm] at h; cases h
    | ok u =>
      have hl : before.length ≠ 0 := by simpa using hb
      have : decide (before.length + headerLength = headerLength) = false := by
        rw [decide_eq_false_iff_not]
        omega
      rw [this]
      rfl

theorem checked_with {n offset : Nat} {body : Bytes} (hn : n < 2 ^ 64) (ho : offset < 2 ^ 64) {L : Nat} {header : PntsHeader}
    (h1 : PntsHeader.read (pntsWith (tableWith n offset) body) = .ok header) (h2 : header.magic = magicBytes)
    (h3 : header.featureTableJson = L)
    (h4 : readAt (pntsWith (tableWith n offset) body) 28 L = .ok (Codec.ser (tableWith n offset)))
    (h5 : offset + (28 + L) < 2 ^ 64) :
    ∃ l, PointLayout.addAttribute PointLayout.default ⟨"Position3D", .vec3f32⟩ (.packed 1) = .ok l ∧
      CheckedPnts.fromRead Codec.codec (pntsWith (tableWith n offset) body) 0 = .ok ⟨⟨pntsWith (tableWith n offset) body,
        ⟨n, none, none, none, none, none⟩, l, 0, [("Position3D", offset + (28 + L))], .absolute⟩⟩ := by
  obtain ⟨l, hl, h⟩ := open_with hn ho h1 h2 h3 h4
  refine ⟨l, hl, ?_⟩
  rw [header_start, h]
  show (if _ then _ else _) = _
  rw [if_pos (by simp; omega)]

theorem read_overflows {data : Bytes} {n o i : Nat} {l : PointLayout}
    (hl : PointLayout.addAttribute PointLayout.default ⟨"Position3D", .vec3f32⟩ (.packed 1) = .ok l) (hi : i < n)
    (hbig : 2 ^ 64 ≤ o + i * 12) :
    readPoints VectorBuffer (⟨⟨data, ⟨n, none, none, none, none, none⟩, l, i, [("Position3D", o)], .absolute⟩⟩ : CheckedPnts) 1 =
      .error .panic := by
  have hm : l.attributes = [⟨⟨"Position3D", .vec3f32⟩, 0⟩] := by cases hl; rfl
  show (CheckedPnts.readInto _ (OwningBuffer.resize (MakeBufferFromLayout.newFromLayout l) 1) 1).bind _ = _
  have hg : (BorrowedBuffer.layout (OwningBuffer.resize (MakeBufferFromLayout.newFromLayout l : VectorBuffer) 1)).getAttributeByName
      "Position3D" = some ⟨⟨"Position3D", .vec3f32⟩, 0⟩ := by
    show l.getAttributeByName "Position3D" = _
    cases hl
    rfl
  unfold CheckedPnts.readInto
  dsimp only
  rw [show bailIf (decide (min (n - i) 1 = 0)) = .ok () by rw [decide_eq_false (by omega)]; rfl, hm, forLoop_cons]
  unfold CheckedPnts.readAttribute
  dsimp only [Member.name]
  rw [hg]
  simp only [List.lookup, expectSome, bind, Except.bind, beq_self_eq_true]
  rw [if_neg (by show ¬ o + i * 12 < 2 ^ 64; omega)]
  rfl

theorem open_huge : ∃ l, PointLayout.addAttribute PointLayout.default ⟨"Position3D", .vec3f32⟩ (.packed 1) = .ok l ∧
    CheckedPnts.fromRead Codec.codec hugeFile 0 = .ok ⟨⟨hugeFile, ⟨2 ^ 63, none, none, none, none, none⟩, l, 0,
      [("Position3D", 0 + (28 + (Codec.ser (tableWith (2 ^ 63) 0)).length))], .absolute⟩⟩ :=
  checked_with (by decide) (by decide) rfl (by decide +kernel) (by decide +kernel) (by decide +kernel) (by decide +kernel)

/-- **C92, positions**: the claim is false for a file that announces 2⁶³ points: it is opened, one can seek to the point with
    index 2⁶², and reading it panics because the offset of its position overflows. -/
theorem C92_index_violated : ∃ (file : Bytes) (c c' : CheckedPnts), CheckedPnts.fromRead Codec.codec file 0 = .ok c ∧
    c.seekPoint (.start (2 ^ 62)) = .ok (2 ^ 62, c') ∧ readPoints VectorBuffer c' 1 = .error .panic := by
  obtain ⟨l, hl, h⟩ := open_huge
  have hseek : ∀ (c : CheckedPnts) (i : Nat), i ≤ c.reader.metadata.pointsLength → c.reader.mode = .absolute →
      c.seekPoint (.start i) = .ok (i, standing c i .absolute) := by
    intro c i hi hm
    rw [← standing_reached c hi]
    obtain ⟨⟨_, _, _, _, _, _⟩⟩ := c
    cases hm
    rfl
  refine ⟨hugeFile, _, _, h, hseek _ (2 ^ 62) ?_ rfl, ?_⟩
  · show 2 ^ 62 ≤ 2 ^ 63
    decide
  · exact read_overflows hl (by decide) (by omega)

/-! ## The hypotheses can be met -/

/-- A file with two points. -/
def soundFile : Bytes := pntsWith (tableWith 2 0) (List.replicate 24 7)

/-- The same file, without its last byte. -/
def cutFile : Bytes := pntsWith (tableWith 2 0) (List.replicate 23 7)

theorem sound_window {body : Bytes} {L : Nat} (h4 : readAt (pntsWith (tableWith 2 0) body) 28 L = .ok (Codec.ser (tableWith 2 0)))
    (hf : field (pntsWith (tableWith 2 0) body) 3 = L) :
    tableOf Codec.codec (pntsWith (tableWith 2 0) body) = some
      [("POINTS_LENGTH", .int 2), ("POSITION", .object [("byteOffset", .int 0)])] := by
  have ht := Codec.codec_reads (tableWith_valid (n := 2) (offset := 0) (by decide) (by decide))
    (by simp [depth, depthEntries, tableWith]) 0
  rw [List.replicate_zero, List.append_nil] at ht
  have hw : window (pntsWith (tableWith 2 0) body) 28 L = Codec.ser (tableWith 2 0) := by
    unfold readAt at h4
    split at h4
    · exact Except.ok.inj h4
    · cases h4
  unfold tableOf
  rw [hf, hw, ht]
  rfl

theorem sound_column {body : Bytes} {L : Nat} (h4 : readAt (pntsWith (tableWith 2 0) body) 28 L = .ok (Codec.ser (tableWith 2 0)))
    (hf : field (pntsWith (tableWith 2 0) body) 3 = L) :
    ∀ s ∈ semantics, ∀ o, columnStart Codec.codec (pntsWith (tableWith 2 0) body) s.1 = some o →
      s.2.size = 12 ∧ o = 28 + L := by
  intro s hs o ho
  unfold columnStart at ho
  rw [sound_window h4 hf, hf] at ho
  simp only [semantics, List.mem_cons, List.not_mem_nil, or_false] at hs
  rcases hs with rfl | rfl | rfl | rfl <;> cases ho
  exact ⟨rfl, rfl⟩

theorem sound_start {body : Bytes} {L : Nat} (h4 : readAt (pntsWith (tableWith 2 0) body) 28 L = .ok (Codec.ser (tableWith 2 0)))
    (hf : field (pntsWith (tableWith 2 0) body) 3 = L) :
    columnStart Codec.codec (pntsWith (tableWith 2 0) body) "POSITION" = some (28 + L) := by
  unfold columnStart
  rw [sound_window h4 hf, hf]
  rfl

theorem sound_read : readAt soundFile 28 (Codec.ser (tableWith 2 0)).length = .ok (Codec.ser (tableWith 2 0)) := by decide +kernel

theorem cut_read : readAt cutFile 28 (Codec.ser (tableWith 2 0)).length = .ok (Codec.ser (tableWith 2 0)) := by decide +kernel

theorem sound_field : field soundFile 3 = (Codec.ser (tableWith 2 0)).length := by decide +kernel

theorem cut_field : field cutFile 3 = (Codec.ser (tableWith 2 0)).length := by decide +kernel

theorem open_sound : ∃ c, CheckedPnts.fromRead Codec.codec soundFile 0 = .ok c ∧ c.reader.metadata.pointsLength = 2 := by
  obtain ⟨l, _, h⟩ := checked_with (n := 2) (offset := 0) (body := List.replicate 24 7) (by decide) (by decide) rfl
    (by decide +kernel) (by decide +kernel) sound_read (by decide +kernel)
  exact ⟨_, h, rfl⟩

theorem open_cut : ∃ c, CheckedPnts.fromRead Codec.codec cutFile 0 = .ok c ∧ c.reader.metadata.pointsLength = 2 := by
  obtain ⟨l, _, h⟩ := checked_with (n := 2) (offset := 0) (body := List.replicate 23 7) (by decide) (by decide) rfl
    (by decide +kernel) (by decide +kernel) cut_read (by decide +kernel)
  exact ⟨_, h, rfl⟩

/-- The sound file is opened, all its values are there, and its two points are read. -/
example : ∃ c, CheckedPnts.fromRead Codec.codec soundFile 0 = .ok c ∧ Complete Codec.codec soundFile 2 ∧
    (∀ s ∈ semantics, ∀ o, columnStart Codec.codec soundFile s.1 = some o → o + 0 * s.2.size < 2 ^ 64) ∧
    Opened c.reader (pointsOf Codec.codec soundFile 2) c.reader.metadata.rtcCenter 0 := by
  obtain ⟨c, hc, hn⟩ := open_sound
  have hcol := sound_column sound_read sound_field
  have hcomp : Complete Codec.codec soundFile 2 := by
    intro s hs o ho
    obtain ⟨h1, h2⟩ := hcol s hs o ho
    rw [h1, h2]
    decide +kernel
  refine ⟨c, hc, hcomp, ?_, ?_⟩
  · intro s hs o ho
    obtain ⟨h1, h2⟩ := hcol s hs o ho
    rw [h1, h2]
    decide +kernel
  · have := C92_complete hc (by rw [hn]; exact hcomp) ⟨("POSITION", ⟨"Position3D", .vec3f32⟩), by decide,
      28 + (Codec.ser (tableWith 2 0)).length, sound_start sound_read sound_field⟩
    rw [hn] at this
    exact this

/-- The cut file is opened, and reading its two points is an error, while reading the first one is not ruled out. -/
example : ∃ c, CheckedPnts.fromRead Codec.codec cutFile 0 = .ok c ∧
    readPoints VectorBuffer (standing c 0 .absolute) 2 = .error .err ∧
    readPoints HashMapBuffer (standing c 1 .relativeToCenter) 1 = .error .err := by
  obtain ⟨c, hc, hn⟩ := open_cut
  have hcol := sound_column cut_read cut_field
  have hpos : columnStart Codec.codec cutFile "POSITION" = some (28 + (Codec.ser (tableWith 2 0)).length) :=
    sound_start cut_read cut_field
  have hlen : cutFile.length < 28 + (Codec.ser (tableWith 2 0)).length + 24 := by decide +kernel
  have hlen' : (Codec.ser (tableWith 2 0)).length < 1000 := by decide +kernel
  refine ⟨c, hc, ?_, ?_⟩
  · refine (C92_truncated hc 0 .absolute 2 ?_ (s := ("POSITION", ⟨"Position3D", .vec3f32⟩)) (by decide) hpos ?_).1
    · intro s hs o ho
      obtain ⟨h1, h2⟩ := hcol s hs o ho
      rw [h1, h2]
      omega
    · rw [hn, show (0 + min (2 - 0) 2) * AttrDef.size ⟨"Position3D", .vec3f32⟩ = 24 from rfl]
      exact hlen
  · refine (C92_truncated hc 1 .relativeToCenter 1 ?_ (s := ("POSITION", ⟨"Position3D", .vec3f32⟩)) (by decide) hpos ?_).2
    · intro s hs o ho
      obtain ⟨h1, h2⟩ := hcol s hs o ho
      rw [h1, h2]
      omega
    · rw [hn, show (1 + min (2 - 1) 1) * AttrDef.size ⟨"Position3D", .vec3f32⟩ = 24 from rfl]
      exact hlen

/-- Files that are refused. -/
example (J : JsonText) : CheckedPnts.fromRead J [] 0 = .error .err ∧
    CheckedPnts.fromRead J (List.replicate 28 0) 0 = .error .err ∧
    CheckedPnts.fromRead J (soundFile.take 40) 0 = .error .err :=
  ⟨C92_refuses (.inl (by decide)), C92_refuses (.inr (.inl (by decide))),
    C92_refuses (.inr (.inr (.inl (by decide +kernel))))⟩

/-- Texts that are not JSON, and JSON that is no tileset, are refused. -/
example (J : JsonText) (text : Bytes) (h : J.fromText text = none ∨ J.fromText text = some .null) :
    RootTileset.read J text = .error .err := by
  unfold RootTileset.read
  rcases h with h | h <;> rw [h] <;> rfl

end Pasture.Props
