import Verif.Lemmas.LasShort
import Verif.Props.LasWriter
import Verif.Props.LasExtraRead

/-!
# C82: records have the length the header declares
-/

namespace Pasture.Props

open Las Spec BorrowedBuffer

/-- A new LAS writer of point format `n` for records with `extra` extra bytes, described by `entries`. -/
structure OpenedWith (n extra : Nat) (entries : Option (List ExtraEntry)) (encode : LasHeader → Bytes) (H : Nat)
    (template : LasHeader) (vlrs evlrs : Bytes) (w : RawLasWriter) : Prop where
  number : template.format % 64 = n
  length : template.recordLength = lasRecordLength n + extra
  header_size : ∀ h, (encode h).length = H
  opened : ∃ f, Format.new n = .ok f ∧
    RawLasWriter.new encode (fileWith f extra entries) template vlrs evlrs (H + vlrs.length) = .ok w

theorem opened_lengths {n extra : Nat} {entries : Option (List ExtraEntry)} {encode : LasHeader → Bytes} {H : Nat}
    {template : LasHeader} {vlrs evlrs : Bytes} {w : RawLasWriter} (o : OpenedWith n extra entries encode H template vlrs evlrs w) :
    Lengths encode H vlrs evlrs n template.format (lasRecordLength n + extra) 0 w ∧ w.header.transforms = template.transforms ∧
      w.header.byReturn = List.replicate 15 0 := by
  obtain ⟨f, h1, h2⟩ := o.opened
  unfold RawLasWriter.new at h2
  obtain ⟨l, _, h2⟩ := ok_of_bind h2
  obtain ⟨u, _, h2⟩ := ok_of_bind h2
  obtain ⟨v, _, h2⟩ := ok_of_bind h2
  cases h2
  refine ⟨⟨rfl, rfl, o.length, rfl, [], by simp, ?_⟩, rfl, rfl⟩
  obtain ⟨hd, tail, e1, e2, e3⟩ := (fresh_file o.header_size vlrs evlrs l { template with
    legacyCount := 0, legacyByReturn := List.replicate 5 0, count := 0, byReturn := List.replicate 15 0
    min := ⟨AABB.f64Max, AABB.f64Max, AABB.f64Max⟩
    max := ⟨AABB.f64Min, AABB.f64Min, AABB.f64Min⟩ }).bytes
  exact ⟨hd, tail, e1, e2, e3⟩

theorem finalize_keeps (h : LasHeader) :
    h.finalize.format = h.format ∧ h.finalize.recordLength = h.recordLength ∧ h.finalize.count = h.count := by
  unfold LasHeader.finalize
  split
  · exact ⟨rfl, rfl, rfl⟩
  · split <;> exact ⟨rfl, rfl, rfl⟩

theorem lengths_flush {encode : LasHeader → Bytes} {H : Nat} (hH : ∀ h, (encode h).length = H) {vlrs evlrs : Bytes}
    {n format recordLength points : Nat} {w : RawLasWriter} (i : Lengths encode H vlrs evlrs n format recordLength points w) :
    Lengths encode H vlrs evlrs n format recordLength points (w.flush encode) ∧ (w.flush encode).requiresFlush = false := by
  obtain ⟨body, hb, hf⟩ := i.file
  obtain ⟨g1, g2, g3, _, g5⟩ := hf.flush hH
  obtain ⟨k1, k2, k3⟩ := finalize_keeps w.header
  exact ⟨⟨by rw [g5]; exact i.evlrs, by rw [g3, k1]; exact i.format, by rw [g3, k2]; exact i.recordLength,
    by rw [g3, k3]; exact i.count, body, hb, g1⟩, g2⟩

theorem lengths_run {encode : LasHeader → Bytes} {H : Nat} (hH : ∀ h, (encode h).length = H) {vlrs evlrs : Bytes}
    {n : Nat} {f : Format} (hf : Format.new n = .ok f) {format recordLength : Nat} (hn : format % 64 = n)
    (calls : List WriterCall) : ∀ {points : Nat} {w w' : RawLasWriter},
    Lengths encode H vlrs evlrs n format recordLength points w → runLas encode w calls = .ok w' →
    Lengths encode H vlrs evlrs n format recordLength (points + (written calls).length) w' := by
  induction calls with
  | nil => intro points w w' i h; cases h; exact i
  | cons c cs ih =>
    intro points w w' i h
    cases c with
    | flush => exact ih (lengths_flush hH i).1 h
    | write b =>
      obtain ⟨w1, h1, h2⟩ := ok_of_bind (x := w.write b.buffer) h
      have := ih (i.write hf hn b.buffer h1) h2
      rw [batch_len] at this
      show Lengths _ _ _ _ _ _ _ (points + (b.points ++ written cs).length) w'
      rw [List.length_append, ← Nat.add_assoc]
      exact this

/-- Whatever is written, in whatever layouts, and however many extra bytes the header announces: if all calls succeed,
    the file has the records of the point format without any extra bytes. -/
theorem C82_lengths {n extra : Nat} {entries : Option (List ExtraEntry)} {encode : LasHeader → Bytes} {H : Nat}
    {template : LasHeader} {vlrs evlrs : Bytes} {w w' : RawLasWriter}
    (o : OpenedWith n extra entries encode H template vlrs evlrs w) (calls : List WriterCall)
    (h : runLas encode w (calls ++ [.flush]) = .ok w') :
    w'.header.count = (written calls).length ∧ w'.header.recordLength = lasRecordLength n + extra ∧
      w'.writer.data.length = H + vlrs.length + (written calls).length * lasRecordLength n + evlrs.length ∧
      w'.writer.data.take H = encode w'.header := by
  obtain ⟨f, h1, h2⟩ := o.opened
  rw [runLas_append] at h
  obtain ⟨w1, g1, g2⟩ := ok_of_bind h
  have i := lengths_run o.header_size h1 o.number calls (opened_lengths o).1 g1
  rw [Nat.zero_add] at i
  cases g2
  obtain ⟨j, hq⟩ := lengths_flush o.header_size i
  obtain ⟨body, hb, hfile⟩ := j.file
  obtain ⟨hd, tail, e1, e2, _, _, e5⟩ := hfile.bytes
  obtain ⟨e6, e7, _⟩ := e5 hq
  refine ⟨j.count, j.recordLength, ?_, ?_⟩
  · rw [e2, List.flatten_singleton, List.length_append, List.length_append, List.length_append, hb, e1, e7, j.evlrs]
  · rw [e2, List.append_assoc, List.append_assoc, List.take_left' e1, e6]

/-- **C82, the part that holds**: without extra bytes, the file has header, VLRs, as many records of the declared length
    as the header counts, and extended VLRs. -/
theorem C82_no_extra_partial {n : Nat} {entries : Option (List ExtraEntry)} {encode : LasHeader → Bytes} {H : Nat}
    {template : LasHeader} {vlrs evlrs : Bytes} {w w' : RawLasWriter}
    (o : OpenedWith n 0 entries encode H template vlrs evlrs w) (calls : List WriterCall)
    (h : runLas encode w (calls ++ [.flush]) = .ok w') :
    w'.header.count = (written calls).length ∧
      w'.writer.data.length = H + vlrs.length + w'.header.count * w'.header.recordLength + evlrs.length := by
  obtain ⟨h1, h2, h3, _⟩ := C82_lengths o calls h
  exact ⟨h1, by rw [h1, h2, h3]; rfl⟩

/-- **C82 violated**: with extra bytes, every file with points is too short: each record lacks its extra bytes. -/
theorem C82_short_violated {n extra : Nat} (hx : 0 < extra) {entries : Option (List ExtraEntry)}
    {encode : LasHeader → Bytes} {H : Nat} {template : LasHeader} {vlrs evlrs : Bytes} {w w' : RawLasWriter}
    (o : OpenedWith n extra entries encode H template vlrs evlrs w) (calls : List WriterCall) (h0 : written calls ≠ [])
    (h : runLas encode w (calls ++ [.flush]) = .ok w') :
    w'.writer.data.length + w'.header.count * extra =
      H + vlrs.length + w'.header.count * w'.header.recordLength + evlrs.length ∧ 0 < w'.header.count * extra := by
  obtain ⟨h1, h2, h3, _⟩ := C82_lengths o calls h
  constructor
  · rw [h1, h2, h3, Nat.mul_add]; omega
  · rw [h1]; exact Nat.mul_pos (List.length_pos_iff.2 h0) hx

/-! ## Reading such a file -/

theorem short_read {data : Bytes} {l : PointLayout} {N offset size : Nat} {t : Transforms} (hN : 0 < N)
    (hl : 0 < l.size) (h : data.length < offset + N * l.size) :
    readPoints VectorBuffer (⟨⟨data, offset⟩, N, t, l, l, 0, offset, size⟩ : RawReader Stream) N = .error .err := by
  have hs : OwningBuffer.resize (MakeBufferFromLayout.newFromLayout l : VectorBuffer) N =
      (⟨zeros (N * l.size), l, N⟩ : Interleaved) := by
    show (⟨vecResize [] (N * l.size) 0, l, N⟩ : Interleaved) = _
    congr 1
    unfold vecResize
    simp [zeros]
  unfold readPoints
  show ((PointReader.readInto _ (OwningBuffer.resize (MakeBufferFromLayout.newFromLayout l : VectorBuffer) N) N).bind _) = _
  rw [hs]
  show Except.bind (if N < N then panicked else if l ≠ l then _ else RawReader.readIntoDefaultLayout _ _ N) _ = _
  rw [if_neg (Nat.lt_irrefl N), if_neg (by simp)]
  have hr : RawReader.readIntoDefaultLayout (⟨⟨data, offset⟩, N, t, l, l, 0, offset, size⟩ : RawReader Stream)
      (⟨zeros (N * l.size), l, N⟩ : Interleaved) N = .error .err := by
    unfold RawReader.readIntoDefaultLayout RawReader.remainingPoints
    dsimp only
    rw [Nat.sub_zero, Nat.min_self, if_neg (by omega)]
    show Except.bind (InterleavedBufferMut.getPointRangeMut (⟨zeros (N * l.size), l, N⟩ : Interleaved) ⟨0, N⟩
      (RecordSource.fill (⟨data, offset⟩ : Stream))) _ = _
    have : InterleavedBufferMut.getPointRangeMut (⟨zeros (N * l.size), l, N⟩ : Interleaved) ⟨0, N⟩
      (RecordSource.fill (⟨data, offset⟩ : Stream)) = .error .err := by
      show Except.bind (sliceGet (zeros (N * l.size)) (0 * l.size) (N * l.size)) _ = _
      rw [Nat.zero_mul, sliceGet_prefix (by simp [zeros])]
      show Except.bind (if ((zeros (N * l.size)).take (N * l.size)).length = 0 ∨
        offset + ((zeros (N * l.size)).take (N * l.size)).length ≤ data.length then _ else _) _ = _
      have hpos := Nat.mul_pos hN hl
      rw [if_neg (by simp only [zeros, List.length_take, List.length_replicate]; omega)]
      rfl
    rw [this]
    rfl
  rw [hr]
  rfl

/-- **C82 violated**: a file with extra bytes, unless it has many extended VLRs, cannot be read back: reading the points
    its header counts fails. -/
theorem C82_unreadable_violated {n : Nat} {entries : List ExtraEntry} {ds : List AttrDef}
    (hd : entries.mapM extraAttribute = some ds) (h0 : 0 < bytesOf ds) (h16 : lasRecordLength n + bytesOf ds < 2 ^ 16)
    (hn : OwnNames n ds) {encode : LasHeader → Bytes} {H : Nat} {template : LasHeader} {vlrs evlrs : Bytes}
    {w w' : RawLasWriter} (o : OpenedWith n (bytesOf ds) (some entries) encode H template vlrs evlrs w)
    (calls : List WriterCall) (hc : evlrs.length < (written calls).length * bytesOf ds)
    (h : runLas encode w (calls ++ [.flush]) = .ok w') :
    ∃ f r, Format.new n = .ok f ∧
      openLas w'.writer.data (fileWith f (bytesOf ds) (some entries)) w'.header.count w'.header.transforms (H + vlrs.length)
        w'.header.recordLength true = .ok r ∧
      readPoints VectorBuffer r w'.header.count = .error .err := by
  obtain ⟨h1, h2, h3, _⟩ := C82_lengths o calls h
  obtain ⟨f', g, _⟩ := o.opened
  obtain ⟨f, base, raw, e1, e2, e3, e4, e5, e6, e7, _⟩ :=
    described_layouts n (itemsOf_eq g).2 true w'.header.transforms hd h0 h16 hn
  refine ⟨f, ⟨⟨w'.writer.data, H + vlrs.length⟩, w'.header.count, w'.header.transforms, extendWith raw ds,
    extendWith raw ds, 0, H + vlrs.length, w'.header.recordLength⟩, e1, ?_, short_read ?_ (by show 0 < raw.size + bytesOf ds; omega) ?_⟩
  · unfold openLas RawReader.ofHeader
    rw [e7]
    rfl
  · rw [h1]
    apply Nat.pos_of_ne_zero
    intro e
    rw [e, Nat.zero_mul] at hc
    omega
  · rw [h1, h3]
    show _ < _ + _ * (raw.size + bytesOf ds)
    rw [e4, Nat.mul_add]
    omega

/-! ## Points in the layout of the file itself -/

theorem shifted_write {n : Nat} {entries : List ExtraEntry} {ds : List AttrDef}
    (hd : entries.mapM extraAttribute = some ds) (h0 : 0 < bytesOf ds) (h16 : lasRecordLength n + bytesOf ds < 2 ^ 16)
    (hn : OwnNames n ds) {encode : LasHeader → Bytes} {H : Nat} {template : LasHeader} {vlrs evlrs : Bytes}
    {w : RawLasWriter} (o : OpenedWith n (bytesOf ds) (some entries) encode H template vlrs evlrs w) :
    ∃ f base, Format.new n = .ok f ∧ pointLayoutFromMetadata ⟨f, none⟩ false = .ok base ∧
      w.defaultLayout = extendWith base ds ∧
      ∀ (N : Nat) (bytes : Bytes) (recs : List Bytes), 0 < N → N ≤ chunkPoints →
        bytes.length = N * w.defaultLayout.size →
        Stored n template.transforms ((recordsOf base.size N (bytes.take (N * base.size))).map (pointOf base)) recs →
        ∃ w', w.write (⟨bytes, w.defaultLayout, N⟩ : VectorBuffer) = .ok w' ∧ w'.header.count = N ∧
          w'.writer = w.writer.write recs.flatten ∧
          (w'.defaultLayout, w'.evlrs, w'.requiresFlush) = (w.defaultLayout, w.evlrs, true) := by
  obtain ⟨f', g, hnew⟩ := o.opened
  have hn10 := (itemsOf_eq g).2
  obtain ⟨f, base, raw, e1, e2, e3, e4, e5, e6, e7, _⟩ :=
    described_layouts n hn10 false template.transforms hd h0 h16 hn
  obtain rfl : f' = f := by rw [g] at e1; cases e1; rfl
  obtain ⟨f2, l2, k1, k2, k3⟩ := default_layout hn10
  obtain rfl : f' = f2 := by rw [g] at k1; cases k1; rfl
  obtain rfl : base = l2 := by rw [e2] at k2; cases k2; rfl
  obtain ⟨i, htr, hby⟩ := opened_lengths o
  have hlay : w.defaultLayout = extendWith base ds := by
    unfold RawLasWriter.new at hnew
    rw [e6] at hnew
    obtain ⟨u, _, hnew⟩ := ok_of_bind (x := bailIf _) hnew
    obtain ⟨v, _, hnew⟩ := ok_of_bind hnew
    cases hnew
    rfl
  have hsol : Solid base := by
    obtain ⟨f3, l3, _, c1, c2, _, _, _, _, c3, _⟩ := format_layouts n hn10 false template.transforms
    obtain rfl : f' = f3 := by rw [g] at c1; cases c1; rfl
    rw [e2] at c2
    cases c2
    exact c3
  refine ⟨f', base, g, e2, hlay, ?_⟩
  intro N bytes recs hN hN2 hb hrec
  have hsz : w.defaultLayout.size = base.size + bytesOf ds := by rw [hlay]; rfl
  have hin : w.writer.pos ≤ w.writer.data.length := by
    obtain ⟨body, _, hfile⟩ := i.file
    exact (lasFile_write hfile [] w.header).2
  have htl : (bytes.take (N * base.size)).length = N * base.size := by
    rw [List.length_take, hb, hsz]
    exact Nat.min_eq_left (Nat.mul_le_mul_left _ (by omega))
  generalize hrs : recordsOf base.size N (bytes.take (N * base.size)) = rs at hrec
  have hall : AllLen base.size rs := hrs ▸ recordsOf_allLen htl
  have hfl : rs.flatten = bytes.take (N * base.size) := hrs ▸ flatten_recordsOf htl
  have hrl : rs.length = N := by rw [← hrs, recordsOf_length]
  let rest := bytes.drop (N * base.size) ++ (zeros (chunkPoints * w.defaultLayout.size)).drop bytes.length
  have hput : put (zeros (chunkPoints * w.defaultLayout.size)) 0 bytes = rs.flatten ++ rest := by
    rw [hfl]
    show _ = _ ++ (_ ++ _)
    rw [← List.append_assoc, List.take_append_drop]
    unfold put
    simp
  obtain ⟨c, hloop⟩ := writesPoints_loop (default_writes g template.transforms k3 hsol hall rest) hrec
    ⟨rs.flatten ++ rest, w.writer, w.header, ReturnCounts.empty⟩ htr rfl hin
  have hpl : (rs.map (pointOf base)).length = N := by rw [List.length_map, hrl]
  rw [hpl] at hloop
  have hbl : (boundedBy w.header (rs.map (pointOf base))).byReturn.length = 15 := by
    rw [boundedBy_fields]
    show w.header.byReturn.length = 15
    rw [hby]
    simp
  have hcnt : ((rs.map (pointOf base)).foldl countReturn ReturnCounts.empty) = (List.range 15).map fun k =>
      (k + 1, 0 + (rs.map (pointOf base)).countP fun p => returnOf p = k + 1) := by
    rw [empty_counts, counts_fold]
  have hchunk : writeChunk (⟨bytes, w.defaultLayout, N⟩ : VectorBuffer) w.defaultLayout.size RawLasWriter.sink
      (fun _ => writeDefaultPoint f') ⟨w.writer, w.header, ReturnCounts.empty, zeros (chunkPoints * w.defaultLayout.size)⟩ 0 =
      .ok ⟨w.writer.write recs.flatten, boundedBy w.header (rs.map (pointOf base)),
        (rs.map (pointOf base)).foldl countReturn ReturnCounts.empty, rs.flatten ++ rest⟩ := by
    unfold writeChunk
    have hm : min chunkPoints (len (⟨bytes, w.defaultLayout, N⟩ : VectorBuffer) - 0) = N := Nat.min_eq_right hN2
    rw [Nat.zero_mul, hm]
    show (sliceGet (zeros (chunkPoints * w.defaultLayout.size)) 0 (N * w.defaultLayout.size)).bind _ = _
    rw [sliceGet_prefix (by simp [zeros]; exact Nat.mul_le_mul_right _ hN2)]
    have hg : getPointRange (⟨bytes, w.defaultLayout, N⟩ : VectorBuffer) ⟨0, 0 + N⟩
        ((zeros (chunkPoints * w.defaultLayout.size)).take (N * w.defaultLayout.size)) = .ok bytes := by
      show Except.bind (sliceGet bytes (0 * w.defaultLayout.size) ((0 + N) * w.defaultLayout.size)) _ = _
      rw [Nat.zero_mul, Nat.zero_add, ← hb, sliceGet_prefix (Nat.le_refl _), List.take_length]
      show copyFromSlice _ bytes = _
      unfold copyFromSlice
      rw [if_pos]
      rw [List.length_take, hb]
      simp only [zeros, List.length_replicate]
      exact (Nat.min_eq_left (Nat.mul_le_mul_right _ hN2)).symm
    show (getPointRange (⟨bytes, w.defaultLayout, N⟩ : VectorBuffer) ⟨0, 0 + N⟩
      ((zeros (chunkPoints * w.defaultLayout.size)).take (N * w.defaultLayout.size))).bind _ = _
    rw [hg]
    show (forLoop (List.range N) (⟨put (zeros (chunkPoints * w.defaultLayout.size)) 0 bytes, w.writer, w.header,
      ReturnCounts.empty⟩ : PointState) (fun ps _ => writeDefaultPoint f' ps)).bind _ = _
    rw [hput, hloop]
    rfl
  refine ⟨⟨w.writer.write recs.flatten, w.defaultLayout, { boundedBy w.header (rs.map (pointOf base)) with
    count := (boundedBy w.header (rs.map (pointOf base))).count + N
    byReturn := (boundedBy w.header (rs.map (pointOf base))).byReturn.mapIdx fun i x => x +
      (0 + (rs.map (pointOf base)).countP fun p => returnOf p = i + 1) }, w.evlrs, true⟩, ?_, ?_, rfl, rfl⟩
  · unfold RawLasWriter.write
    rw [if_pos (show layout (⟨bytes, w.defaultLayout, N⟩ : VectorBuffer) = w.defaultLayout from rfl)]
    unfold RawLasWriter.writeDefault
    rw [if_neg (show ¬ len (⟨bytes, w.defaultLayout, N⟩ : VectorBuffer) = 0 from fun e => by
      change N = 0 at e; omega), i.format, o.number, g]
    show (writeChunks (⟨bytes, w.defaultLayout, N⟩ : VectorBuffer) _ _ _ _ _).bind _ = _
    have hw : writeChunks (⟨bytes, w.defaultLayout, N⟩ : VectorBuffer) w.defaultLayout.size RawLasWriter.sink
        (fun _ => writeDefaultPoint f') w.writer w.header =
        ((boundedBy w.header (rs.map (pointOf base))).updateCounts N
          ((rs.map (pointOf base)).foldl countReturn ReturnCounts.empty)).bind
          fun h => .ok (w.writer.write recs.flatten, h) := by
      unfold writeChunks
      have h1 : (N + (chunkPoints - 1)) / chunkPoints = 1 := by
        unfold chunkPoints at hN2 ⊢
        omega
      show (forLoop (List.range ((N + (chunkPoints - 1)) / chunkPoints)) _ _).bind _ = _
      rw [h1]
      show (Except.bind (writeChunk (⟨bytes, w.defaultLayout, N⟩ : VectorBuffer) w.defaultLayout.size RawLasWriter.sink
        (fun _ => writeDefaultPoint f') ⟨w.writer, w.header, ReturnCounts.empty, zeros (chunkPoints * w.defaultLayout.size)⟩ 0)
          _).bind _ = _
      rw [hchunk]
      rfl
    rw [hw, hcnt, updateCounts_eq _ hbl]
    rfl
  · show (boundedBy w.header (rs.map (pointOf base))).count + N = N
    rw [boundedBy_fields]
    show w.header.count + N = N
    rw [i.count, Nat.zero_add]

/-- **C82 violated**: when the points are in the default layout of a file with extra bytes, the writer does not skip the
    extra bytes of a point. Of a buffer with `N` points the first `N * size` bytes are written, as if the points had no
    extra bytes: `size` is that of the default layout without extra bytes. -/
theorem C82_shifted_violated {n : Nat} {entries : List ExtraEntry} {ds : List AttrDef}
    (hd : entries.mapM extraAttribute = some ds) (h0 : 0 < bytesOf ds) (h16 : lasRecordLength n + bytesOf ds < 2 ^ 16)
    (hn : OwnNames n ds) {encode : LasHeader → Bytes} {H : Nat} {template : LasHeader} {vlrs evlrs : Bytes}
    {w : RawLasWriter} (o : OpenedWith n (bytesOf ds) (some entries) encode H template vlrs evlrs w) :
    ∃ f base, Format.new n = .ok f ∧ pointLayoutFromMetadata ⟨f, none⟩ false = .ok base ∧
      w.defaultLayout.attributes = base.attributes ++ membersFrom base.size ds ∧
      w.defaultLayout.size = base.size + bytesOf ds ∧
      ∀ (N : Nat) (bytes : Bytes) (recs : List Bytes), 0 < N → N ≤ chunkPoints →
        bytes.length = N * w.defaultLayout.size →
        Stored n template.transforms ((recordsOf base.size N (bytes.take (N * base.size))).map (pointOf base)) recs →
        ∃ w', w.write (⟨bytes, w.defaultLayout, N⟩ : VectorBuffer) = .ok w' ∧ (w'.flush encode).header.count = N ∧
          (w'.flush encode).writer.data = encode (w'.flush encode).header ++ vlrs ++ recs.flatten ++ evlrs := by
  obtain ⟨f, base, h1, h2, h3, h4⟩ := shifted_write hd h0 h16 hn o
  refine ⟨f, base, h1, h2, by rw [h3]; rfl, by rw [h3]; rfl, ?_⟩
  intro N bytes recs hN hN2 hb hrec
  obtain ⟨w', g1, g2, g3, g4⟩ := h4 N bytes recs hN hN2 hb hrec
  obtain ⟨i, _⟩ := opened_lengths o
  obtain ⟨body, hbody, hfile⟩ := i.file
  obtain rfl : body = [] := List.eq_nil_of_length_eq_zero (by rw [hbody, Nat.zero_mul])
  have hf := (lasFile_write hfile recs.flatten w'.header).1
  have hw' : w' = { w with writer := w.writer.write recs.flatten, header := w'.header, requiresFlush := true } := by
    obtain ⟨a, b, c, d, e⟩ := w'
    simp only at g3 g4
    subst g3
    cases g4
    rfl
  rw [← hw', List.nil_append] at hf
  obtain ⟨k1, k2, k3, _, k5⟩ := hf.flush o.header_size
  obtain ⟨hdr, tail, m1, m2, _, _, m5⟩ := k1.bytes
  obtain ⟨m6, m7, _⟩ := m5 k2
  refine ⟨w', g1, by rw [k3, (finalize_keeps _).2.2]; exact g2, ?_⟩
  rw [m2, m6, m7, k5, List.flatten_singleton]
  congr 1
  rw [hw']
  exact i.evlrs

/-! ## The LAZ writer -/

/-- **C82 for LAZ**: there is no writer for a LAZ file with extra bytes. Making one panics. -/
theorem C82_laz_violated {extra : Nat} (hx : 0 < extra) {f : Format} {entries : Option (List ExtraEntry)}
    (template : LasHeader) {l : PointLayout} (hl : pointLayoutFromMetadata (fileWith f extra entries) false = .ok l) :
    RawLazWriter.new (fileWith f extra entries) template = panicked := by
  unfold RawLazWriter.new
  rw [hl]
  show (assertThat (decide (extra = 0))).bind _ = _
  rw [decide_eq_false (by omega)]
  rfl

/-! ## Concrete cases -/

theorem opens_with {n : Nat} (hn : n ≤ 10) {entries : List ExtraEntry} {ds : List AttrDef}
    (hd : entries.mapM extraAttribute = some ds) (h0 : 0 < bytesOf ds) (h16 : lasRecordLength n + bytesOf ds < 2 ^ 16)
    (ho : OwnNames n ds) (encode : LasHeader → Bytes) {H : Nat} (hH : ∀ h, (encode h).length = H)
    (template : LasHeader) (hf : template.format % 64 = n) (hl : template.recordLength = lasRecordLength n + bytesOf ds)
    (ht : ScalesNonzero template.transforms) (vlrs evlrs : Bytes) :
    ∃ w, OpenedWith n (bytesOf ds) (some entries) encode H template vlrs evlrs w := by
  obtain ⟨f, base, raw, e1, e2, e3, e4, e5, e6, _⟩ := described_layouts n hn false template.transforms hd h0 h16 ho
  have : ∃ w, RawLasWriter.new encode (fileWith f (bytesOf ds) (some entries)) template vlrs evlrs (H + vlrs.length) = .ok w := by
    unfold RawLasWriter.new
    refine ok_bind e6 (ok_bind (a := ()) ?_ (ok_bind (a := ()) (assertThat_true (decide_eq_true ?_)) ⟨_, rfl⟩))
    · exact congrArg bailIf ht
    · rw [write_start]
      show (encode _).length + vlrs.length = _
      rw [hH]
  obtain ⟨w, hw⟩ := this
  exact ⟨w, hf, hl, hH, f, e1, hw⟩

namespace ExtraExample

/-- One byte, "Quality". -/
def entries : List ExtraEntry := [entryOf "Quality" .u8]
def added : List AttrDef := [⟨"Quality", .u8⟩]

/-- Point format 0 with that byte. -/
def header : LasHeader := { smallHeader with recordLength := 21 }

/-- The default layout of format 0, and that of the file. -/
def plain : PointLayout := packedLayout (writtenAttributes ⟨false, false, false, false, false, 0, false⟩)
def layout : PointLayout := extendWith plain added

/-- Two points at the origin; the second has intensity 7. -/
def first : Bytes := zeros 36
def second : Bytes := zeros 24 ++ [7, 0] ++ zeros 10

theorem described : entries.mapM extraAttribute = some added := by decide +kernel
theorem solid : Solid layout := by decide +kernel

theorem records_len : AllLen layout.size [first, second] := by
  have : layout.size = 36 := by decide +kernel
  rw [this]
  intro r hr
  rcases List.mem_cons.1 hr with rfl | hr
  · rfl
  · rcases List.mem_cons.1 hr with rfl | hr
    · rfl
    · cases hr

def batch : Batch where
  β := VectorBuffer
  buffer := Interleaved.ofRecords layout [first, second]
  layout := layout
  points := [first, second].map (pointOf layout)
  shows := interleaved_shows_points solid records_len
  solid := solid

/-- The records that end up in the file. -/
def stored : List Bytes := [zeros 20, zeros 13 ++ [7] ++ zeros 6]

end ExtraExample

open ExtraExample in
/-- **C82 violated**, a concrete case: the second of two points has intensity 7; the file has intensity 0x0700 for it, and
    reading the two points fails. -/
theorem C82_value_violated : ∃ w w', OpenedWith 0 1 (some entries) smallEncode 12 header [] [] w ∧
    batch.layout = w.defaultLayout ∧ batch.points.map (lasValue · "Intensity") = [some [0, 0], some [7, 0]] ∧
    runLas smallEncode w [.write batch, .flush] = .ok w' ∧ w'.header.count = 2 ∧
    window w'.writer.data (12 + 12) 2 = [0, 0] ∧ window w'.writer.data (12 + 20 + 12) 2 = [0, 7] ∧
    ∃ f r, Format.new 0 = .ok f ∧ openLas w'.writer.data (fileWith f 1 (some entries)) 2 w'.header.transforms 12 21 true = .ok r ∧
      readPoints VectorBuffer r 2 = .error .err := by
  obtain ⟨w, o⟩ := opens_with (n := 0) (by omega) described (by decide) (by decide) (by decide +kernel) smallEncode small_encode
    header rfl rfl small_scales [] []
  obtain ⟨f, base, h1, h2, _, _, h4⟩ := C82_shifted_violated described (by decide) (by decide) (by decide +kernel) o
  obtain ⟨f', base', g1, g2, g3, _⟩ := shifted_write described (by decide) (by decide) (by decide +kernel) o
  obtain rfl : base = plain := by
    cases h1
    rw [show pointLayoutFromMetadata _ false = .ok plain by decide +kernel] at h2
    cases h2
    rfl
  obtain rfl : base' = plain := by
    cases g1
    rw [show pointLayoutFromMetadata _ false = .ok plain by decide +kernel] at g2
    cases g2
    rfl
  have hlay : w.defaultLayout = ExtraExample.layout := g3
  have hsz : ExtraExample.layout.size = 36 := by decide +kernel
  obtain ⟨w', k1, k2, k3⟩ := h4 2 [first, second].flatten ExtraExample.stored (by omega) (by decide)
    (by rw [hlay, hsz]; rfl) (by unfold Stored; decide +kernel)
  rw [hlay] at k1
  have hrun : runLas smallEncode w [.write batch, .flush] = .ok (w'.flush smallEncode) := by
    show (w.write (⟨[first, second].flatten, ExtraExample.layout, 2⟩ : VectorBuffer)).bind _ = _
    rw [k1]
    rfl
  obtain ⟨f, r, u1, u2, u3⟩ := C82_unreadable_violated described (by decide) (by decide) (by decide +kernel) o [.write batch]
    (by decide) hrun
  obtain ⟨_, v2, _⟩ := C82_lengths o [.write batch] hrun
  rw [k2, v2] at u2
  rw [k2] at u3
  refine ⟨w, w'.flush smallEncode, o, hlay.symm, by decide +kernel, hrun, k2, ?_, ?_, f, r, u1, u2, u3⟩
  all_goals
    rw [k3, List.append_nil, List.append_nil]
    unfold window
    rw [List.drop_append, small_encode, List.drop_eq_nil_of_le (by rw [small_encode]; omega)]
    decide +kernel

end Pasture.Props
