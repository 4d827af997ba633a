import Verif.Lemmas.LasWriter
import Verif.Props.Bounds
import Verif.Props.LasPositions

/-!
# The state of a LAS or LAZ writer after a sequence of calls
-/

namespace Pasture.Las

open BorrowedBuffer Spec

/-! ## The header -/

theorem boundedBy_congr (qs : List Point) : ∀ {h h' : LasHeader}, h.min = h'.min → h.max = h'.max →
    (boundedBy h qs).min = (boundedBy h' qs).min ∧ (boundedBy h qs).max = (boundedBy h' qs).max := by
  unfold boundedBy
  induction qs with
  | nil => intro h h' e1 e2; exact ⟨e1, e2⟩
  | cons q qs ih =>
    intro h h' e1 e2
    rw [List.foldl_cons, List.foldl_cons]
    apply ih
    · unfold LasHeader.updateBounds; rw [e1]
    · unfold LasHeader.updateBounds; rw [e2]

/-- The header after points were written: `ps` all of them, `counted` those that were counted by return
    number. -/
structure HeaderInv (start : LasHeader) (ps counted : List Point) (h : LasHeader) : Prop where
  transforms : h.transforms = start.transforms
  format : h.format = start.format
  recordLength : h.recordLength = start.recordLength
  count : h.count = ps.length
  min : h.min = (boundedBy start ps).min
  max : h.max = (boundedBy start ps).max
  byReturn : h.byReturn = (List.range 15).map fun k => (withReturn (k + 1) counted).length
  evlrStart : h.evlrStart = start.evlrStart

theorem HeaderInv.finalize {start : LasHeader} {ps counted : List Point} {h : LasHeader}
    (i : HeaderInv start ps counted h) : HeaderInv start ps counted h.finalize := by
  unfold LasHeader.finalize
  split
  · exact i
  · split
    · exact i
    · exact ⟨i.transforms, i.format, i.recordLength, i.count, i.min, i.max, i.byReturn, i.evlrStart⟩

theorem finalize_finalize (h : LasHeader) : h.finalize.finalize = h.finalize := by
  unfold LasHeader.finalize
  by_cases h1 : h.count > 2 ^ 32 - 1
  · rw [if_pos h1, if_pos h1]
  · rw [if_neg h1]
    by_cases h2 : h.format % 16 > 5
    · rw [if_pos h2, if_neg h1, if_pos h2]
    · rw [if_neg h2]
      dsimp only
      rw [if_neg h1, if_neg h2]

theorem withReturn_append (k : Nat) (ps qs : List Point) : withReturn k (ps ++ qs) = withReturn k ps ++ withReturn k qs := by
  unfold withReturn; rw [List.filter_append]

theorem HeaderInv.counts {start : LasHeader} {ps counted qs add : List Point} {h : LasHeader}
    (i : HeaderInv start ps counted h) {counts : ReturnCounts}
    (hc : counts = (List.range 15).map fun k => (k + 1, (withReturn (k + 1) add).length)) :
    ∃ h', (boundedBy h qs).updateCounts qs.length counts = .ok h' ∧ HeaderInv start (ps ++ qs) (counted ++ add) h' ∧
      h'.legacyCount = h.legacyCount ∧ h'.legacyByReturn = h.legacyByReturn := by
  have hf := boundedBy_fields h qs
  have hb : (boundedBy h qs).byReturn.length = 15 := by rw [hf]; show h.byReturn.length = 15; rw [i.byReturn]; simp
  refine ⟨_, by rw [hc, updateCounts_eq _ hb], ?_, ?_, ?_⟩
  · obtain ⟨m1, m2⟩ := boundedBy_congr qs i.min i.max
    refine ⟨?_, ?_, ?_, ?_, ?_, ?_, ?_, ?_⟩
    · show (boundedBy h qs).transforms = _; rw [hf]; exact i.transforms
    · show (boundedBy h qs).format = _; rw [hf]; exact i.format
    · show (boundedBy h qs).recordLength = _; rw [hf]; exact i.recordLength
    · show (boundedBy h qs).count + qs.length = _
      rw [hf, List.length_append]
      show h.count + _ = _
      rw [i.count]
    · show (boundedBy h qs).min = _; rw [m1, boundedBy_append]
    · show (boundedBy h qs).max = _; rw [m2, boundedBy_append]
    · show (boundedBy h qs).byReturn.mapIdx _ = _
      rw [hf]
      show h.byReturn.mapIdx _ = _
      rw [i.byReturn, mapIdx_range]
      apply List.map_congr_left
      intro k _
      rw [withReturn_append, List.length_append]
    · show (boundedBy h qs).evlrStart = _; rw [hf]; exact i.evlrStart
  · show (boundedBy h qs).legacyCount = _; rw [hf]
  · show (boundedBy h qs).legacyByReturn = _; rw [hf]

theorem counts_default {n : Nat} {f : Format} (hf : Format.new n = .ok f) {t : Transforms} {qs : List Point}
    {recs : List Bytes} (h : Stored n t qs recs) (hp : ∀ p ∈ qs, Sized p) :
    qs.foldl countReturn ReturnCounts.empty = (List.range 15).map fun k => (k + 1, (withReturn (k + 1) qs).length) := by
  rw [empty_counts, counts_fold]
  apply List.map_congr_left
  intro k _
  rw [withReturn_length hf h hp, Nat.zero_add]

theorem counts_custom (qs : List Point) :
    qs.foldl countNothing ReturnCounts.empty = (List.range 15).map fun k => (k + 1, (withReturn (k + 1) []).length) := by
  rw [countNothing_fold]
  rfl

/-! ## One call of `write` -/

/-- The points of a batch that the writer counts by return number: those of batches in the default layout. -/
def countedIn (l : PointLayout) (b : Batch) : List Point := if b.layout = l then b.points else []

theorem batch_layout (b : Batch) : layout b.buffer = b.layout := b.shows.layout_eq

theorem batch_len (b : Batch) : len b.buffer = b.points.length := b.shows.len_eq

/-- Readers for a batch that can be stored and is not empty. -/
theorem batch_readers {n : Nat} {f : Format} (hf : Format.new n = .ok f) {t : Transforms} (b : Batch)
    (h0 : b.points ≠ []) {recs : List Bytes} (h : Stored n t b.points recs) :
    ∃ readers, attributeReaders b.layout f = .ok readers ∧
      PointOk n t b.layout countNothing (writeCustomPoint f readers) := by
  obtain ⟨p, hp⟩ := List.exists_mem_of_ne_nil _ h0
  obtain ⟨i, hi⟩ := List.mem_iff_getElem?.1 hp
  obtain ⟨r, _, h1, h2⟩ := b.shows.getPoint_ok i p (zeros b.layout.size) hi (by simp [zeros])
  obtain ⟨rec, hrec⟩ := mapM_some_mem h p hp
  obtain ⟨readers, h3, h4⟩ := attributeReaders_spec (f := f) b.solid (r0 := r) fun d hd => by
    rw [h2]; exact storedRecord_values hf hrec hd
  exact ⟨readers, h3, fun rs rest hall => ⟨_, custom_writes hf t h4 hall rest, rfl⟩⟩

theorem last_chunk {α : Type} (xs : List α) : xs.take ((xs.length + (chunkPoints - 1)) / chunkPoints * chunkPoints) = xs := by
  apply List.take_of_length_le
  have := chunk_last (n := xs.length) chunkPoints_pos
  rw [← Nat.add_sub_assoc chunkPoints_pos]
  exact this

/-- Records written straight to a stream. -/
theorem las_chunks (b : Batch) {n : Nat} {t : Transforms}
    {counting : ReturnCounts → Point → ReturnCounts} {point : Nat → PointState → Out PointState}
    (hp : PointOk n t b.layout counting point) (s : Stream) (hs : s.pos ≤ s.data.length) (header : LasHeader)
    (ht : header.transforms = t) {recs : List Bytes} (hrec : Stored n t b.points recs) :
    writeChunks b.buffer b.layout.size RawLasWriter.sink point s header =
      ((boundedBy header b.points).updateCounts b.points.length (b.points.foldl counting ReturnCounts.empty)).bind
        fun h => .ok (s.write recs.flatten, h) := by
  have hlen : recs.length = b.points.length := mapM_length hrec
  obtain ⟨s', h1, h2⟩ := writeChunks_eq b.shows hp RawLasWriter.sink s header ht hrec
    (P := fun k s' => s' = s.write (recs.take (k * chunkPoints)).flatten) (by simp [write_nil hs])
    (by intro k s' e; rw [e]; exact write_inside hs _)
    (by
      intro k s' _ e
      refine ⟨_, rfl, ?_⟩
      show s'.write _ = _
      rw [e, write_write hs, take_chunks, List.flatten_append])
  rw [← hlen, last_chunk] at h1
  rw [h2, h1]

/-- Records collected chunk by chunk and handed to the compressor: all of them if the number of points
    handed over is that of the chunk. -/
theorem laz_chunks (b : Batch) {n : Nat} (hn : n ≤ 10) {t : Transforms}
    {counting : ReturnCounts → Point → ReturnCounts} {point : Nat → PointState → Out PointState}
    (hp : PointOk n t b.layout counting point) (handed : Bytes) (header : LasHeader)
    (ht : header.transforms = t) {recs : List Bytes} (hrec : Stored n t b.points recs) (points : Nat → Nat)
    (hpoints : ∀ k, k * chunkPoints < b.points.length → points (chunkOf b.points k).length = (chunkOf b.points k).length) :
    ∃ buffer, writeChunks b.buffer b.layout.size (RawLazWriter.sink (lasRecordLength n) points) point
        ⟨handed, zeros (chunkPoints * lasRecordLength n)⟩ header =
      ((boundedBy header b.points).updateCounts b.points.length (b.points.foldl counting ReturnCounts.empty)).bind
        fun h => .ok (⟨handed ++ recs.flatten, buffer⟩, h) := by
  have hlen : recs.length = b.points.length := mapM_length hrec
  have hall := stored_allLen hn (batch_sized b) hrec
  obtain ⟨s', h1, h2⟩ := writeChunks_eq b.shows hp (RawLazWriter.sink (lasRecordLength n) points)
    ⟨handed, zeros (chunkPoints * lasRecordLength n)⟩ header ht hrec
    (P := fun k s' => s'.handed = handed ++ (recs.take (k * chunkPoints)).flatten ∧
      s'.buffer.length = chunkPoints * lasRecordLength n) (by simp [zeros])
    (by intro k s' _; exact Nat.zero_le _)
    (by
      rintro k s' hk ⟨e1, e2⟩
      have hsub : AllLen (lasRecordLength n) (chunkOf recs k) := fun r hr =>
        hall r (List.mem_of_mem_drop (List.mem_of_mem_take hr))
      have hcl : (chunkOf recs k).length = (chunkOf b.points k).length := by
        rw [chunkOf_length, chunkOf_length, hlen]
      have hfl := hsub.flatten_length
      have hle : (chunkOf recs k).flatten.length ≤ s'.buffer.length := by
        rw [hfl, e2, chunkOf_length]
        exact Nat.mul_le_mul_right _ (Nat.min_le_left _ _)
      have hw : ((⟨s'.buffer, 0⟩ : Stream).write (chunkOf recs k).flatten).data =
          (chunkOf recs k).flatten ++ s'.buffer.drop (chunkOf recs k).flatten.length := by
        have := write_at_end (a := []) (b := (chunkOf recs k).flatten) (t := s'.buffer)
        rw [List.nil_append] at this
        rw [show (⟨s'.buffer, 0⟩ : Stream) = ⟨s'.buffer, ([] : Bytes).length⟩ from rfl, this]
        rfl
      refine ⟨⟨s'.handed ++ (chunkOf recs k).flatten, ((⟨s'.buffer, 0⟩ : Stream).write (chunkOf recs k).flatten).data⟩,
        ?_, ?_, ?_⟩
      · show (sliceGet ((⟨s'.buffer, 0⟩ : Stream).write (chunkOf recs k).flatten).data 0
          (points (chunkOf b.points k).length * lasRecordLength n)).bind _ = _
        rw [hpoints k hk, ← hcl, ← hfl, hw, sliceGet_prefix (by simp)]
        show Except.ok _ = _
        rw [List.take_left' rfl, ← hw]
        rfl
      · show s'.handed ++ _ = _
        rw [e1, take_chunks, List.flatten_append, List.append_assoc]
      · rw [hw, List.length_append, List.length_drop]
        omega)
  rw [← hlen, last_chunk] at h1
  obtain ⟨g1, g2⟩ := h1
  obtain ⟨hd, bf⟩ := s'
  simp only at g1
  subst g1
  exact ⟨bf, h2⟩

/-- What the custom path hands over: 50,000 records per chunk, with the records of the points first. -/
theorem laz_chunks_whole (b : Batch) {n : Nat} (hn : n ≤ 10) {t : Transforms}
    {counting : ReturnCounts → Point → ReturnCounts} {point : Nat → PointState → Out PointState}
    (hp : PointOk n t b.layout counting point) (handed : Bytes) (header : LasHeader)
    (ht : header.transforms = t) {recs : List Bytes} (hrec : Stored n t b.points recs) :
    ∃ s, s.handed.length = handed.length +
        (b.points.length + (chunkPoints - 1)) / chunkPoints * (chunkPoints * lasRecordLength n) ∧
      (∃ junk, s.handed = handed ++ recs.flatten ++ junk) ∧
      writeChunks b.buffer b.layout.size (RawLazWriter.sink (lasRecordLength n) fun _ => chunkPoints) point
        ⟨handed, zeros (chunkPoints * lasRecordLength n)⟩ header =
      ((boundedBy header b.points).updateCounts b.points.length (b.points.foldl counting ReturnCounts.empty)).bind
        fun h => .ok (s, h) := by
  have hlen : recs.length = b.points.length := mapM_length hrec
  have hall := stored_allLen hn (batch_sized b) hrec
  obtain ⟨s', h1, h2⟩ := writeChunks_eq b.shows hp (RawLazWriter.sink (lasRecordLength n) fun _ => chunkPoints)
    ⟨handed, zeros (chunkPoints * lasRecordLength n)⟩ header ht hrec
    (P := fun k s' => s'.handed.length = handed.length + k * (chunkPoints * lasRecordLength n) ∧
      s'.buffer.length = chunkPoints * lasRecordLength n ∧
      ∃ junk, s'.handed = handed ++ (recs.take (k * chunkPoints)).flatten ++ junk ∧
        (k * chunkPoints ≤ recs.length → junk = [])) (by simp [zeros])
    (by intro k s' _; exact Nat.zero_le _)
    (by
      rintro k s' hk ⟨e1, e2, junk, e3, e4⟩
      have hsub : AllLen (lasRecordLength n) (chunkOf recs k) := fun r hr =>
        hall r (List.mem_of_mem_drop (List.mem_of_mem_take hr))
      have hfl := hsub.flatten_length
      have hle : (chunkOf recs k).flatten.length ≤ s'.buffer.length := by
        rw [hfl, e2, chunkOf_length]
        exact Nat.mul_le_mul_right _ (Nat.min_le_left _ _)
      have hw : ((⟨s'.buffer, 0⟩ : Stream).write (chunkOf recs k).flatten).data =
          (chunkOf recs k).flatten ++ s'.buffer.drop (chunkOf recs k).flatten.length := by
        have := write_at_end (a := []) (b := (chunkOf recs k).flatten) (t := s'.buffer)
        rw [List.nil_append] at this
        rw [show (⟨s'.buffer, 0⟩ : Stream) = ⟨s'.buffer, ([] : Bytes).length⟩ from rfl, this]
        rfl
      have hwl : ((⟨s'.buffer, 0⟩ : Stream).write (chunkOf recs k).flatten).data.length =
          chunkPoints * lasRecordLength n := by
        rw [hw, List.length_append, List.length_drop]
        omega
      refine ⟨⟨s'.handed ++ ((⟨s'.buffer, 0⟩ : Stream).write (chunkOf recs k).flatten).data,
        ((⟨s'.buffer, 0⟩ : Stream).write (chunkOf recs k).flatten).data⟩, ?_, ?_, hwl, ?_⟩
      · show (sliceGet ((⟨s'.buffer, 0⟩ : Stream).write (chunkOf recs k).flatten).data 0
          (chunkPoints * lasRecordLength n)).bind _ = _
        rw [← hwl, sliceGet_prefix (Nat.le_refl _)]
        show Except.ok _ = _
        rw [List.take_length]
        rfl
      · show (s'.handed ++ _).length = _
        rw [List.length_append, e1, hwl, Nat.succ_mul, Nat.add_assoc]
      · refine ⟨s'.buffer.drop (chunkOf recs k).flatten.length, ?_, ?_⟩
        · show s'.handed ++ _ = _
          rw [e3, e4 (by rw [hlen]; exact Nat.le_of_lt hk), hw, take_chunks, List.flatten_append]
          simp only [List.append_assoc, List.append_nil]
        · intro hfull
          apply List.drop_eq_nil_of_le
          rw [hfl, e2, chunkOf_length, Nat.min_eq_left]
          rw [Nat.succ_mul] at hfull
          omega)
  obtain ⟨h1, _, junk, h3, _⟩ := h1
  refine ⟨s', h1, ⟨junk, ?_⟩, h2⟩
  rw [h3, ← hlen, last_chunk]

/-! ## The LAS writer -/

/-- The file: header, VLRs, records, and whatever a flush left behind the records. -/
structure LasFile (encode : LasHeader → Bytes) (H : Nat) (vlrs : Bytes) (recs : List Bytes) (w : RawLasWriter) : Prop where
  bytes : ∃ hd tail, hd.length = H ∧ w.writer.data = hd ++ vlrs ++ recs.flatten ++ tail ∧
    w.writer.pos = (hd ++ vlrs ++ recs.flatten).length ∧ tail.length ≤ w.evlrs.length ∧
    (w.requiresFlush = false → hd = encode w.header ∧ tail = w.evlrs ∧ w.header.finalize = w.header)

/-- The state of a LAS writer. -/
structure LasInv (encode : LasHeader → Bytes) (H : Nat) (vlrs evlrs : Bytes) (n : Nat) (l : PointLayout)
    (start : LasHeader) (ps counted : List Point) (recs : List Bytes) (w : RawLasWriter) : Prop where
  layout : w.defaultLayout = l
  evlrs : w.evlrs = evlrs
  header : HeaderInv start ps counted w.header
  stored : Stored n start.transforms ps recs
  file : LasFile encode H vlrs recs w

theorem LasInv.write {encode : LasHeader → Bytes} {H : Nat} {vlrs evlrs : Bytes} {n : Nat} {f : Format}
    (hf : Format.new n = .ok f) {l : PointLayout} (hd : DefaultFor f l) {start : LasHeader} (hs : start.format % 64 = n)
    {ps counted : List Point} {recs : List Bytes} {w : RawLasWriter}
    (i : LasInv encode H vlrs evlrs n l start ps counted recs w) (b : Batch) {recs' : List Bytes}
    (h : Stored n start.transforms b.points recs') :
    ∃ w', w.write b.buffer = .ok w' ∧
      LasInv encode H vlrs evlrs n l start (ps ++ b.points) (counted ++ countedIn l b) (recs ++ recs') w' ∧
      w'.header.legacyCount = w.header.legacyCount ∧ w'.header.legacyByReturn = w.header.legacyByReturn := by
  by_cases h0 : b.points = []
  · refine ⟨w, ?_, ?_, rfl, rfl⟩
    · have hl0 : len b.buffer = 0 := by rw [batch_len, h0]; rfl
      unfold RawLasWriter.write RawLasWriter.writeDefault RawLasWriter.writeCustom
      rw [if_pos hl0, if_pos hl0]
      split <;> rfl
    · have hc : countedIn l b = [] := by unfold countedIn; split; exact h0; rfl
      have hr : recs' = [] := by rw [h0] at h; cases h; rfl
      rw [h0, hr, hc, List.append_nil, List.append_nil, List.append_nil]
      exact i
  · have hl0 : ¬ len b.buffer = 0 := by
      rw [batch_len]; intro e; exact h0 (List.eq_nil_of_length_eq_zero e)
    obtain ⟨hdr, tail, f1, f2, f3, f4, _⟩ := i.file.bytes
    have hpos : w.writer.pos ≤ w.writer.data.length := by
      rw [f2, f3]
      simp only [List.length_append]
      omega
    have hfm : Format.new (w.header.format % 64) = .ok f := by rw [i.header.format, hs]; exact hf
    have hws : w.writer.write recs'.flatten =
        ⟨hdr ++ vlrs ++ (recs ++ recs').flatten ++ tail.drop recs'.flatten.length,
          (hdr ++ vlrs ++ (recs ++ recs').flatten).length⟩ := by
      have e : w.writer = ⟨(hdr ++ vlrs ++ recs.flatten) ++ tail, (hdr ++ vlrs ++ recs.flatten).length⟩ := by
        rw [← f2, ← f3]
      rw [e, write_at_end]
      simp only [List.flatten_append, List.append_assoc, List.length_append, Stream.mk.injEq, true_and]
      omega
    have hfile : ∀ h', LasFile encode H vlrs (recs ++ recs') { w with
        writer := w.writer.write recs'.flatten, header := h', requiresFlush := true } := by
      intro h'
      rw [hws]
      refine ⟨hdr, _, f1, rfl, rfl, ?_, by intro e; cases e⟩
      show _ ≤ w.evlrs.length
      rw [List.length_drop]
      omega
    by_cases hlay : b.layout = l
    · have hsol : Solid l := hlay ▸ b.solid
      have hc : countedIn l b = b.points := if_pos hlay
      obtain ⟨h', g1, g2, g3⟩ := i.header.counts (counts_default hf h (batch_sized b)) (qs := b.points)
      refine ⟨{ w with writer := w.writer.write recs'.flatten, header := h', requiresFlush := true }, ?_,
        ⟨i.layout, i.evlrs, hc ▸ g2, stored_append i.stored h, hfile h'⟩, g3⟩
      unfold RawLasWriter.write
      rw [if_pos (by rw [batch_layout, i.layout]; exact hlay)]
      unfold RawLasWriter.writeDefault
      rw [if_neg hl0, hfm]
      show (writeChunks b.buffer w.defaultLayout.size _ _ w.writer w.header).bind _ = _
      rw [i.layout, ← hlay, las_chunks b (hlay ▸ default_pointOk hf start.transforms hd hsol) w.writer hpos w.header
        i.header.transforms h, g1]
      rfl
    · have hc : countedIn l b = [] := if_neg hlay
      obtain ⟨readers, r1, r2⟩ := batch_readers hf b h0 h
      obtain ⟨h', g1, g2, g3⟩ := i.header.counts (counts_custom b.points) (qs := b.points)
      refine ⟨{ w with writer := w.writer.write recs'.flatten, header := h', requiresFlush := true }, ?_,
        ⟨i.layout, i.evlrs, hc ▸ g2, stored_append i.stored h, hfile h'⟩, g3⟩
      unfold RawLasWriter.write
      rw [if_neg (by rw [batch_layout, i.layout]; exact hlay)]
      unfold RawLasWriter.writeCustom
      rw [if_neg hl0, hfm]
      show (attributeReaders (BorrowedBuffer.layout b.buffer) f).bind _ = _
      rw [batch_layout, r1]
      show (writeChunks b.buffer b.layout.size _ _ w.writer w.header).bind _ = _
      rw [las_chunks b r2 w.writer hpos w.header i.header.transforms h, g1]
      rfl

theorem LasFile.flush {encode : LasHeader → Bytes} {H : Nat} (hH : ∀ h, (encode h).length = H) {vlrs : Bytes}
    {recs : List Bytes} {w : RawLasWriter} (i : LasFile encode H vlrs recs w) :
    LasFile encode H vlrs recs (w.flush encode) ∧ (w.flush encode).requiresFlush = false ∧
      (w.flush encode).header = w.header.finalize ∧ (w.flush encode).defaultLayout = w.defaultLayout ∧
      (w.flush encode).evlrs = w.evlrs := by
  obtain ⟨hdr, tail, f1, f2, f3, f4, f5⟩ := i.bytes
  by_cases hr : w.requiresFlush = true
  · have hw : w.writer = ⟨hdr ++ vlrs ++ recs.flatten ++ tail, (hdr ++ vlrs ++ recs.flatten).length⟩ := by
      rw [← f2, ← f3]
    have hflush : w.flush encode = { w with
        writer := ⟨encode w.header.finalize ++ vlrs ++ recs.flatten ++ w.evlrs, w.writer.pos⟩
        header := w.header.finalize, requiresFlush := false } := by
      unfold RawLasWriter.flush
      rw [if_pos hr]
      unfold RawLasWriter.writeHeader Stream.seek
      dsimp only
      have e1 : (⟨w.writer.data, 0⟩ : Stream).write (encode w.header.finalize) =
          ⟨encode w.header.finalize ++ (vlrs ++ recs.flatten ++ tail), H⟩ := by
        have := write_at_end (a := []) (b := encode w.header.finalize) (t := w.writer.data)
        rw [List.nil_append, List.nil_append] at this
        rw [show (⟨w.writer.data, 0⟩ : Stream) = ⟨w.writer.data, ([] : Bytes).length⟩ from rfl, this, f2, hH]
        rw [show hdr ++ vlrs ++ recs.flatten ++ tail = hdr ++ (vlrs ++ recs.flatten ++ tail) by simp only [List.append_assoc],
          List.drop_left' f1]
        simp
      rw [e1]
      have e2 : (⟨encode w.header.finalize ++ (vlrs ++ recs.flatten ++ tail), w.writer.pos⟩ : Stream) =
          ⟨(encode w.header.finalize ++ vlrs ++ recs.flatten) ++ tail,
            (encode w.header.finalize ++ vlrs ++ recs.flatten).length⟩ := by
        rw [f3]
        simp only [List.append_assoc, List.length_append, hH, f1]
      rw [e2, write_at_end, List.drop_eq_nil_of_le f4, List.append_nil, f3]
    rw [hflush]
    refine ⟨?_, rfl, rfl, rfl, rfl⟩
    refine ⟨encode w.header.finalize, w.evlrs, hH _, rfl, ?_, Nat.le_refl _, fun _ => ⟨rfl, rfl, finalize_finalize _⟩⟩
    show w.writer.pos = _
    rw [f3]
    simp only [List.length_append, hH, f1]
  · have hr' : w.requiresFlush = false := by simpa using hr
    have hflush : w.flush encode = w := by unfold RawLasWriter.flush; rw [if_neg hr]
    rw [hflush]
    exact ⟨i, hr', (f5 hr').2.2.symm, rfl, rfl⟩

theorem LasInv.flush {encode : LasHeader → Bytes} {H : Nat} (hH : ∀ h, (encode h).length = H) {vlrs evlrs : Bytes} {n : Nat}
    {l : PointLayout} {start : LasHeader} {ps counted : List Point} {recs : List Bytes} {w : RawLasWriter}
    (i : LasInv encode H vlrs evlrs n l start ps counted recs w) :
    LasInv encode H vlrs evlrs n l start ps counted recs (w.flush encode) ∧
      (w.flush encode).requiresFlush = false ∧ (w.flush encode).header = w.header.finalize := by
  obtain ⟨h1, h2, h3, h4, h5⟩ := i.file.flush hH
  exact ⟨⟨h4.trans i.layout, h5.trans i.evlrs, h3 ▸ i.header.finalize, i.stored, h1⟩, h2, h3⟩

/-! ## The LAZ writer -/

/-- The state of a LAZ writer. -/
structure LazInv (n : Nat) (l : PointLayout) (start : LasHeader) (ps counted : List Point) (w : RawLazWriter) : Prop where
  layout : w.defaultLayout = l
  header : HeaderInv start ps counted w.header

/-- The custom path hands over exactly the records if all chunks are full. -/
def FullChunks (l : PointLayout) (b : Batch) : Prop := b.layout = l ∨ b.points.length % chunkPoints = 0

/-- The records handed to the compressor for a batch in another layout than the default one. -/
def handedRecords (b : Batch) : Nat := (b.points.length + (chunkPoints - 1)) / chunkPoints * chunkPoints

theorem LazInv.write {n : Nat} {f : Format} (hf : Format.new n = .ok f) {l : PointLayout} (hd : DefaultFor f l)
    {start : LasHeader} (hs : start.format % 64 = n) (hrl : start.recordLength = lasRecordLength n)
    {ps counted : List Point} {w : RawLazWriter} (i : LazInv n l start ps counted w) (b : Batch)
    {recs' : List Bytes} (h : Stored n start.transforms b.points recs') :
    ∃ w', w.write b.buffer = .ok w' ∧
      LazInv n l start (ps ++ b.points) (counted ++ countedIn l b) w' ∧
      (FullChunks l b → w'.handed = w.handed ++ recs'.flatten) ∧
      (b.layout ≠ l → w'.handed.length = w.handed.length + handedRecords b * lasRecordLength n) ∧
      (∃ junk, w'.handed = w.handed ++ recs'.flatten ++ junk) ∧
      w'.header.legacyCount = w.header.legacyCount ∧ w'.header.legacyByReturn = w.header.legacyByReturn := by
  have hn := (itemsOf_eq hf).2
  by_cases h0 : b.points = []
  · refine ⟨w, ?_, ?_, ?_, ?_, ?_, rfl, rfl⟩
    · have hl0 : len b.buffer = 0 := by rw [batch_len, h0]; rfl
      unfold RawLazWriter.write RawLazWriter.writeDefault RawLazWriter.writeCustom
      rw [if_pos hl0, if_pos hl0]
      split <;> rfl
    · have hc : countedIn l b = [] := by unfold countedIn; split; exact h0; rfl
      rw [h0, hc, List.append_nil, List.append_nil]
      exact i
    · have hr : recs' = [] := by rw [h0] at h; cases h; rfl
      rw [hr]
      simp
    · unfold handedRecords
      rw [h0]
      intro _
      simp [chunkPoints]
    · have hr : recs' = [] := by rw [h0] at h; cases h; rfl
      exact ⟨[], by rw [hr]; simp⟩
  · have hl0 : ¬ len b.buffer = 0 := by
      rw [batch_len]; intro e; exact h0 (List.eq_nil_of_length_eq_zero e)
    have hfm : Format.new (w.header.format % 64) = .ok f := by rw [i.header.format, hs]; exact hf
    have hrec : w.header.recordLength = lasRecordLength n := by rw [i.header.recordLength, hrl]
    by_cases hlay : b.layout = l
    · have hsol : Solid l := hlay ▸ b.solid
      have hc : countedIn l b = b.points := if_pos hlay
      obtain ⟨h', g1, g2, g3⟩ := i.header.counts (counts_default hf h (batch_sized b)) (qs := b.points)
      refine ⟨{ w with handed := w.handed ++ recs'.flatten, header := h' }, ?_,
        ⟨i.layout, hc ▸ g2⟩, fun _ => rfl, fun hne => absurd hlay hne, ⟨[], (List.append_nil _).symm⟩, g3⟩
      unfold RawLazWriter.write
      rw [if_neg (not_not.2 (by rw [batch_layout, i.layout]; exact hlay))]
      unfold RawLazWriter.writeDefault
      rw [if_neg hl0, hfm]
      show (writeChunks b.buffer w.defaultLayout.size _ _ _ w.header).bind _ = _
      obtain ⟨buf, hbuf⟩ := laz_chunks b hn (hlay ▸ default_pointOk hf start.transforms hd hsol) w.handed w.header
        i.header.transforms h id (fun _ _ => rfl)
      rw [i.layout, hrec, ← hlay, hbuf, g1]
      rfl
    · have hc : countedIn l b = [] := if_neg hlay
      obtain ⟨readers, r1, r2⟩ := batch_readers hf b h0 h
      obtain ⟨h', g1, g2, g3⟩ := i.header.counts (counts_custom b.points) (qs := b.points)
      obtain ⟨s, hlen, hjunk, hwhole⟩ := laz_chunks_whole b hn r2 w.handed w.header i.header.transforms h
      refine ⟨{ w with handed := s.handed, header := h' }, ?_,
        ⟨i.layout, hc ▸ g2⟩, ?_, ?_, hjunk, g3⟩
      · unfold RawLazWriter.write
        rw [if_pos (by rw [batch_layout, i.layout]; exact hlay)]
        unfold RawLazWriter.writeCustom
        rw [if_neg hl0, hfm]
        show (attributeReaders (BorrowedBuffer.layout b.buffer) f).bind _ = _
        rw [batch_layout, r1]
        show (writeChunks b.buffer b.layout.size _ _ _ w.header).bind _ = _
        rw [hrec, hwhole, g1]
        rfl
      · intro hfull
        obtain ⟨buf, hbuf⟩ := laz_chunks b hn r2 w.handed w.header i.header.transforms h (fun _ => chunkPoints) (by
          intro k hk
          have hm := hfull.resolve_left hlay
          rw [chunkOf_length]
          have := Nat.div_add_mod b.points.length chunkPoints
          rw [hm] at this
          have hkq : k < b.points.length / chunkPoints := by
            apply Nat.lt_of_mul_lt_mul_left (a := chunkPoints)
            rw [Nat.mul_comm]
            omega
          have := Nat.mul_le_mul_left chunkPoints hkq
          rw [Nat.mul_succ, Nat.mul_comm chunkPoints k] at this
          omega)
        rw [hwhole, g1] at hbuf
        injection hbuf with e
        exact congrArg (fun x => x.1.handed) e
      · intro _
        show s.handed.length = _
        rw [hlen, handedRecords, Nat.mul_assoc]

end Pasture.Las
