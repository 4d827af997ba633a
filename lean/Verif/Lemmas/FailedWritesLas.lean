import Verif.Lemmas.FailedWrites
import Verif.Spec.FailedWrites
import Verif.Props.LasWriter

/-!
# The state of a LAS writer after writes some of which failed
-/

namespace Pasture.Las

open BorrowedBuffer Spec

/-- What a successful write does to any LAS writer. -/
theorem las_written {n : Nat} {f : Format} (hf : Format.new n = .ok f) {w : RawLasWriter}
    (hd : DefaultFor f w.defaultLayout) (hfm : w.header.format % 64 = n) (hpos : w.writer.pos ≤ w.writer.data.length)
    (h15 : w.header.byReturn.length = 15) (b : Batch) (h0 : b.points ≠ []) {recs : List Bytes}
    (h : Stored n w.header.transforms b.points recs) :
    w.write b.buffer = .ok { w with
      writer := w.writer.write recs.flatten
      header := { boundedBy w.header b.points with
        count := w.header.count + b.points.length
        byReturn := w.header.byReturn.mapIdx fun i x => x + (withReturn (i + 1) (countedIn w.defaultLayout b)).length }
      requiresFlush := true } := by
  have hl0 : ¬ len b.buffer = 0 := by
    rw [batch_len]; intro e; exact h0 (List.eq_nil_of_length_eq_zero e)
  have hbf := boundedBy_fields w.header b.points
  have hb15 : (boundedBy w.header b.points).byReturn.length = 15 := by rw [hbf]; exact h15
  have hc : (boundedBy w.header b.points).count = w.header.count := by rw [hbf]
  have hr : (boundedBy w.header b.points).byReturn = w.header.byReturn := by rw [hbf]
  unfold RawLasWriter.write
  by_cases hlay : b.layout = w.defaultLayout
  · have hsol : Solid w.defaultLayout := hlay ▸ b.solid
    have hci : countedIn w.defaultLayout b = b.points := if_pos hlay
    rw [if_pos (by rw [batch_layout]; exact hlay)]
    unfold RawLasWriter.writeDefault
    rw [if_neg hl0, hfm, hf]
    show (writeChunks b.buffer w.defaultLayout.size _ _ w.writer w.header).bind _ = _
    rw [show w.defaultLayout.size = b.layout.size by rw [hlay],
      las_chunks b (hlay ▸ default_pointOk hf w.header.transforms hd hsol) w.writer hpos w.header rfl h,
      counts_default hf h (batch_sized b), updateCounts_eq _ hb15, hci, hc, hr]
    rfl
  · have hci : countedIn w.defaultLayout b = [] := if_neg hlay
    obtain ⟨readers, r1, r2⟩ := batch_readers hf b h0 h
    rw [if_neg (by rw [batch_layout]; exact hlay)]
    unfold RawLasWriter.writeCustom
    rw [if_neg hl0, hfm, hf]
    show (attributeReaders (BorrowedBuffer.layout b.buffer) f).bind _ = _
    rw [batch_layout, r1]
    show (writeChunks b.buffer b.layout.size _ _ w.writer w.header).bind _ = _
    rw [las_chunks b r2 w.writer hpos w.header rfl h, counts_custom, updateCounts_eq _ hb15, hci, hc, hr]
    rfl

/-- The state of a LAS writer some writes to which failed: `ps` are the points whose records are in the file, `m` the number
    of points counted, `counted` those counted by return number. -/
structure Loose (H : Nat) (vlrs evlrs : Bytes) (n : Nat) (l : PointLayout) (start : LasHeader) (ps counted : List Point)
    (m : Nat) (recs : List Bytes) (w : RawLasWriter) : Prop where
  layout : w.defaultLayout = l
  extended : w.evlrs = evlrs
  transforms : w.header.transforms = start.transforms
  format : w.header.format = start.format
  count : w.header.count = m
  min : w.header.min = (boundedBy start ps).min
  max : w.header.max = (boundedBy start ps).max
  byReturn : w.header.byReturn = (List.range 15).map fun k => (withReturn (k + 1) counted).length
  stored : Stored n start.transforms ps recs
  bytes : ∃ hd tail, hd.length = H ∧ w.writer.data = hd ++ vlrs ++ recs.flatten ++ tail ∧
    w.writer.pos = (hd ++ vlrs ++ recs.flatten).length ∧ tail.length ≤ evlrs.length

theorem LasInv.loose {encode : LasHeader → Bytes} {H : Nat} {vlrs evlrs : Bytes} {n : Nat} {l : PointLayout}
    {start : LasHeader} {ps counted : List Point} {recs : List Bytes} {w : RawLasWriter}
    (i : LasInv encode H vlrs evlrs n l start ps counted recs w) :
    Loose H vlrs evlrs n l start ps counted ps.length recs w := by
  obtain ⟨hd, tail, f1, f2, f3, f4, _⟩ := i.file.bytes
  exact ⟨i.layout, i.evlrs, i.header.transforms, i.header.format, i.header.count, i.header.min, i.header.max,
    i.header.byReturn, i.stored, hd, tail, f1, f2, f3, i.evlrs ▸ f4⟩

section
variable {H : Nat} {vlrs evlrs : Bytes} {n : Nat} {f : Format} (hf : Format.new n = .ok f) {l : PointLayout}
  (hd : DefaultFor f l) {start : LasHeader} (hs : start.format % 64 = n) {ps counted : List Point} {m : Nat}
  {recs : List Bytes} {w : RawLasWriter}

theorem Loose.inside (i : Loose H vlrs evlrs n l start ps counted m recs w) : w.writer.pos ≤ w.writer.data.length := by
  obtain ⟨hd, tail, f1, f2, f3, f4⟩ := i.bytes
  rw [f2, f3]
  simp only [List.length_append]
  omega

theorem Loose.grown (i : Loose H vlrs evlrs n l start ps counted m recs w) (recs' : List Bytes) :
    ∃ hd tail, hd.length = H ∧ (w.writer.write recs'.flatten).data = hd ++ vlrs ++ (recs ++ recs').flatten ++ tail ∧
      (w.writer.write recs'.flatten).pos = (hd ++ vlrs ++ (recs ++ recs').flatten).length ∧ tail.length ≤ evlrs.length := by
  obtain ⟨hdr, tail, f1, f2, f3, f4⟩ := i.bytes
  have e : w.writer = ⟨(hdr ++ vlrs ++ recs.flatten) ++ tail, (hdr ++ vlrs ++ recs.flatten).length⟩ := by
    rw [← f2, ← f3]
  refine ⟨hdr, tail.drop recs'.flatten.length, f1, ?_, ?_, by rw [List.length_drop]; omega⟩
  · rw [e, write_at_end]
    simp only [List.flatten_append, List.append_assoc]
  · rw [e, write_at_end]
    simp only [List.flatten_append, List.append_assoc, List.length_append]
    omega

theorem bounded_more {h : LasHeader} (hmin : h.min = (boundedBy start ps).min) (hmax : h.max = (boundedBy start ps).max)
    (qs : List Point) : (boundedBy h qs).min = (boundedBy start (ps ++ qs)).min ∧
      (boundedBy h qs).max = (boundedBy start (ps ++ qs)).max := by
  rw [boundedBy_append]
  exact boundedBy_congr qs hmin hmax

include hf hd hs

theorem Loose.write (i : Loose H vlrs evlrs n l start ps counted m recs w) (b : Batch) {recs' : List Bytes}
    (h : Stored n start.transforms b.points recs') :
    Loose H vlrs evlrs n l start (ps ++ b.points) (counted ++ countedIn l b) (m + b.points.length) (recs ++ recs')
      (goOn (w.writeLeft b.buffer)) := by
  by_cases h0 : b.points = []
  · have hl0 : len b.buffer = 0 := by rw [batch_len, h0]; rfl
    have hw : w.writeLeft b.buffer = .ok w := by
      unfold RawLasWriter.writeLeft RawLasWriter.writeDefaultLeft RawLasWriter.writeCustomLeft
      rw [if_pos hl0, if_pos hl0]
      split <;> rfl
    have hc : countedIn l b = [] := by unfold countedIn; split; exact h0; rfl
    have hr : recs' = [] := by rw [h0] at h; cases h; rfl
    rw [hw, h0, hr, hc, List.append_nil, List.append_nil, List.append_nil]
    exact i
  · have hw := las_written hf (w := w) (i.layout ▸ hd) (by rw [i.format]; exact hs) i.inside (by rw [i.byReturn]; simp) b h0
      (i.transforms ▸ h)
    rw [of_forget ((forget_lasWrite w b.buffer).trans hw)]
    have hbf := boundedBy_fields w.header b.points
    obtain ⟨b1, b2⟩ := bounded_more i.min i.max b.points
    refine ⟨i.layout, i.extended, ?_, ?_, ?_, b1, b2, ?_, stored_append i.stored h, i.grown recs'⟩
    · show (boundedBy w.header b.points).transforms = _; rw [hbf]; exact i.transforms
    · show (boundedBy w.header b.points).format = _; rw [hbf]; exact i.format
    · show w.header.count + _ = _; rw [i.count]
    · show w.header.byReturn.mapIdx _ = _
      rw [i.byReturn, mapIdx_range, i.layout]
      apply List.map_congr_left
      intro k _
      rw [withReturn_append, List.length_append]

theorem Loose.refuse (i : Loose H vlrs evlrs n l start ps counted m recs w) (b : Batch) {good rest : List Point} {p : Point}
    (hsplit : b.points = good ++ p :: rest) {recs' : List Bytes} (h : Stored n start.transforms good recs')
    (hno : storedRecord n start.transforms p = none) :
    Loose H vlrs evlrs n l start (ps ++ good) counted m (recs ++ recs') (goOn (w.writeLeft b.buffer)) := by
  have hw := las_left hf (w := w) (i.layout ▸ hd) (by rw [i.format]; exact hs) i.inside b hsplit (i.transforms ▸ h)
    (i.transforms ▸ hno)
  rw [hw]
  have hbf := boundedBy_fields w.header good
  obtain ⟨b1, b2⟩ := bounded_more i.min i.max good
  refine ⟨i.layout, i.extended, ?_, ?_, ?_, b1, b2, ?_, stored_append i.stored h, i.grown recs'⟩
  · show (boundedBy w.header good).transforms = _; rw [hbf]; exact i.transforms
  · show (boundedBy w.header good).format = _; rw [hbf]; exact i.format
  · show (boundedBy w.header good).count = _; rw [hbf]; exact i.count
  · show (boundedBy w.header good).byReturn = _; rw [hbf]; exact i.byReturn

end

theorem finalize_kept (h : LasHeader) : h.finalize.transforms = h.transforms ∧ h.finalize.format = h.format ∧
    h.finalize.count = h.count ∧ h.finalize.min = h.min ∧ h.finalize.max = h.max ∧ h.finalize.byReturn = h.byReturn := by
  unfold LasHeader.finalize
  split
  · exact ⟨rfl, rfl, rfl, rfl, rfl, rfl⟩
  · split <;> exact ⟨rfl, rfl, rfl, rfl, rfl, rfl⟩

theorem Loose.flush {encode : LasHeader → Bytes} {H : Nat} (hH : ∀ h, (encode h).length = H) {vlrs evlrs : Bytes} {n : Nat}
    {l : PointLayout} {start : LasHeader} {ps counted : List Point} {m : Nat} {recs : List Bytes} {w : RawLasWriter}
    (i : Loose H vlrs evlrs n l start ps counted m recs w) :
    Loose H vlrs evlrs n l start ps counted m recs (w.flush encode) ∧
      (w.requiresFlush = true → (w.flush encode).writer.data = encode (w.flush encode).header ++ vlrs ++ recs.flatten ++ evlrs ∧
        (w.flush encode).header = w.header.finalize) := by
  by_cases hr : w.requiresFlush = true
  · obtain ⟨hdr, tail, f1, f2, f3, f4⟩ := i.bytes
    have file : LasFile encode H vlrs recs w := ⟨hdr, tail, f1, f2, f3, i.extended ▸ f4, fun e => by rw [hr] at e; cases e⟩
    obtain ⟨h1, h2, h3, h4, h5⟩ := file.flush hH
    obtain ⟨k1, k2, k3, k4, k5, k6⟩ := finalize_kept w.header
    obtain ⟨hdr', tail', g1, g2, g3, g4, g5⟩ := h1.bytes
    obtain ⟨g6, g7, _⟩ := g5 h2
    refine ⟨⟨h4.trans i.layout, h5.trans i.extended, ?_, ?_, ?_, ?_, ?_, ?_, i.stored,
      hdr', tail', g1, g2, g3, by rw [← i.extended, ← h5]; exact g4⟩, fun _ => ⟨?_, h3⟩⟩
    · rw [h3, k1, i.transforms]
    · rw [h3, k2, i.format]
    · rw [h3, k3, i.count]
    · rw [h3, k4, i.min]
    · rw [h3, k5, i.max]
    · rw [h3, k6, i.byReturn]
    · rw [g2, g6, g7, h5, i.extended]
  · have hflush : w.flush encode = w := by unfold RawLasWriter.flush; rw [if_neg hr]
    rw [hflush]
    exact ⟨i, fun e => absurd e hr⟩

/-- A batch that can be stored, or its first point that cannot. -/
theorem batch_cases (n : Nat) (t : Transforms) (b : Batch) :
    (b.accepted n t = true ∧ b.beforeRefusal n t = b.points ∧ ∃ recs, Stored n t b.points recs) ∨
    (b.accepted n t = false ∧ ∃ p rest recs, b.points = b.beforeRefusal n t ++ p :: rest ∧
      Stored n t (b.beforeRefusal n t) recs ∧ storedRecord n t p = none) := by
  unfold Batch.accepted Batch.beforeRefusal
  generalize b.points = qs
  induction qs with
  | nil => exact Or.inl ⟨rfl, rfl, [], rfl⟩
  | cons q qs ih =>
    cases hq : storedRecord n t q with
    | none =>
      have hs : storable n t q = false := by unfold storable; rw [hq]; rfl
      refine Or.inr ⟨by simp [hs], q, qs, [], ?_, ?_, hq⟩
      · rw [List.takeWhile_cons_of_neg (by simp [hs])]; rfl
      · rw [List.takeWhile_cons_of_neg (by simp [hs])]; rfl
    | some rec =>
      have hs : storable n t q = true := by unfold storable; rw [hq]; rfl
      rw [List.all_cons, hs, Bool.true_and, List.takeWhile_cons_of_pos hs]
      rcases ih with ⟨a1, a2, recs, a3⟩ | ⟨a1, p, rest, recs, a2, a3, a4⟩
      · refine Or.inl ⟨a1, by rw [a2], rec :: recs, ?_⟩
        unfold Stored at a3 ⊢
        rw [List.mapM_cons, hq, a3]
        rfl
      · refine Or.inr ⟨a1, p, rest, rec :: recs, by rw [List.cons_append, ← a2], ?_, a4⟩
        unfold Stored at a3 ⊢
        rw [List.mapM_cons, hq, a3]
        rfl

/-! ## LAZ -/

/-- What a successful write does to any LAZ writer. -/
theorem laz_written {n : Nat} {f : Format} (hf : Format.new n = .ok f) {w : RawLazWriter}
    (hd : DefaultFor f w.defaultLayout) (hfm : w.header.format % 64 = n) (hrl : w.header.recordLength = lasRecordLength n)
    (h15 : w.header.byReturn.length = 15) (b : Batch) (h0 : b.points ≠ []) {recs : List Bytes}
    (h : Stored n w.header.transforms b.points recs) :
    ∃ handed, w.write b.buffer = .ok { w with
        handed
        header := { boundedBy w.header b.points with
          count := w.header.count + b.points.length
          byReturn := w.header.byReturn.mapIdx fun i x => x + (withReturn (i + 1) (countedIn w.defaultLayout b)).length } } ∧
      (b.layout = w.defaultLayout → handed = w.handed ++ recs.flatten) := by
  have hn := (itemsOf_eq hf).2
  have hl0 : ¬ len b.buffer = 0 := by
    rw [batch_len]; intro e; exact h0 (List.eq_nil_of_length_eq_zero e)
  have hbf := boundedBy_fields w.header b.points
  have hb15 : (boundedBy w.header b.points).byReturn.length = 15 := by rw [hbf]; exact h15
  have hc : (boundedBy w.header b.points).count = w.header.count := by rw [hbf]
  have hr : (boundedBy w.header b.points).byReturn = w.header.byReturn := by rw [hbf]
  unfold RawLazWriter.write
  by_cases hlay : b.layout = w.defaultLayout
  · have hsol : Solid w.defaultLayout := hlay ▸ b.solid
    have hci : countedIn w.defaultLayout b = b.points := if_pos hlay
    refine ⟨w.handed ++ recs.flatten, ?_, fun _ => rfl⟩
    rw [if_neg (not_not.2 (by rw [batch_layout]; exact hlay))]
    unfold RawLazWriter.writeDefault
    rw [if_neg hl0, hfm, hf]
    show (writeChunks b.buffer w.defaultLayout.size _ _ _ w.header).bind _ = _
    obtain ⟨buf, hbuf⟩ := laz_chunks b hn (hlay ▸ default_pointOk hf w.header.transforms hd hsol) w.handed w.header
      rfl h id (fun _ _ => rfl)
    rw [show w.defaultLayout.size = b.layout.size by rw [hlay], hrl, hbuf,
      counts_default hf h (batch_sized b), updateCounts_eq _ hb15, hci, hc, hr]
    rfl
  · have hci : countedIn w.defaultLayout b = [] := if_neg hlay
    obtain ⟨readers, r1, r2⟩ := batch_readers hf b h0 h
    obtain ⟨s, _, _, hwhole⟩ := laz_chunks_whole b hn r2 w.handed w.header rfl h
    refine ⟨s.handed, ?_, fun e => absurd e hlay⟩
    rw [if_pos (by rw [batch_layout]; exact hlay)]
    unfold RawLazWriter.writeCustom
    rw [if_neg hl0, hfm, hf]
    show (attributeReaders (BorrowedBuffer.layout b.buffer) f).bind _ = _
    rw [batch_layout, r1]
    show (writeChunks b.buffer b.layout.size _ _ _ w.header).bind _ = _
    rw [hrl, hwhole, counts_custom, updateCounts_eq _ hb15, hci, hc, hr]
    rfl

/-- The state of a LAZ writer some writes to which failed: `ps` are the points the header has seen, `kept` those whose
    records the compressor got (if all were written in the default layout), `m` the number of points counted. -/
structure LooseLaz (n : Nat) (l : PointLayout) (start : LasHeader) (ps kept counted : List Point) (m : Nat) (w : RawLazWriter) :
    Prop where
  layout : w.defaultLayout = l
  transforms : w.header.transforms = start.transforms
  format : w.header.format = start.format
  recordLength : w.header.recordLength = start.recordLength
  count : w.header.count = m
  min : w.header.min = (boundedBy start ps).min
  max : w.header.max = (boundedBy start ps).max
  byReturn : w.header.byReturn = (List.range 15).map fun k => (withReturn (k + 1) counted).length
  stored : ∃ recs, Stored n start.transforms ps recs
  keeps : ∃ recs, Stored n start.transforms kept recs ∧ w.handed = recs.flatten

theorem stored_take {n : Nat} {t : Transforms} {ps : List Point} {recs : List Bytes} (h : Stored n t ps recs) (k : Nat) :
    Stored n t (ps.take k) (recs.take k) := by
  have h' : Stored n t (ps.take k ++ ps.drop k) recs := by rw [List.take_append_drop]; exact h
  obtain ⟨r1, r2, rfl, h1, h2⟩ := Props.stored_split h'
  have hl := mapM_length h1
  have hl2 := mapM_length h2
  rw [List.length_take] at hl
  by_cases hk : k ≤ ps.length
  · rw [List.take_left' (by omega)]
    exact h1
  · rw [List.length_drop, Nat.sub_eq_zero_of_le (by omega)] at hl2
    rw [List.eq_nil_of_length_eq_zero hl2, List.append_nil, List.take_of_length_le (l := r1) (by omega)]
    exact h1

section
variable {n : Nat} {f : Format} (hf : Format.new n = .ok f) {l : PointLayout}
  (hd : DefaultFor f l) {start : LasHeader} (hs : start.format % 64 = n) (hrl : start.recordLength = lasRecordLength n)
  {ps kept counted : List Point} {m : Nat} {w : RawLazWriter}
include hf hd hs hrl

theorem LooseLaz.write (i : LooseLaz n l start ps kept counted m w) (b : Batch) (hlay : b.layout = l) {recs' : List Bytes}
    (h : Stored n start.transforms b.points recs') :
    LooseLaz n l start (ps ++ b.points) (kept ++ b.points) (counted ++ b.points) (m + b.points.length)
      (goOn (w.writeLeft b.buffer)) := by
  obtain ⟨recs, k1, k2⟩ := i.keeps
  obtain ⟨recs₀, k3⟩ := i.stored
  by_cases h0 : b.points = []
  · have hl0 : len b.buffer = 0 := by rw [batch_len, h0]; rfl
    have hw : w.writeLeft b.buffer = .ok w := by
      unfold RawLazWriter.writeLeft RawLazWriter.writeDefaultLeft RawLazWriter.writeCustomLeft
      rw [if_pos hl0, if_pos hl0]
      split <;> rfl
    rw [hw, h0, List.append_nil, List.append_nil, List.append_nil]
    exact i
  · obtain ⟨handed, hw, hh⟩ := laz_written hf (w := w) (i.layout ▸ hd) (by rw [i.format]; exact hs)
      (by rw [i.recordLength]; exact hrl) (by rw [i.byReturn]; simp) b h0 (recs := recs') (by rw [i.transforms]; exact h)
    rw [of_forget ((forget_lazWrite w b.buffer).trans hw)]
    have hbf := boundedBy_fields w.header b.points
    have hci : countedIn w.defaultLayout b = b.points := if_pos (by rw [i.layout]; exact hlay)
    obtain ⟨b1, b2⟩ := bounded_more i.min i.max b.points
    refine ⟨i.layout, ?_, ?_, ?_, ?_, b1, b2, ?_, ⟨_, stored_append k3 h⟩, recs ++ recs', stored_append k1 h, ?_⟩
    · show (boundedBy w.header b.points).transforms = _; rw [hbf]; exact i.transforms
    · show (boundedBy w.header b.points).format = _; rw [hbf]; exact i.format
    · show (boundedBy w.header b.points).recordLength = _; rw [hbf]; exact i.recordLength
    · show w.header.count + _ = _; rw [i.count]
    · show w.header.byReturn.mapIdx _ = _
      rw [i.byReturn, mapIdx_range, hci]
      apply List.map_congr_left
      intro k _
      rw [withReturn_append, List.length_append]
    · show handed = _
      rw [hh (by rw [i.layout]; exact hlay), k2, List.flatten_append]

theorem LooseLaz.refuse (i : LooseLaz n l start ps kept counted m w) (b : Batch) {good rest : List Point} {p : Point}
    (hsplit : b.points = good ++ p :: rest) {recs' : List Bytes} (h : Stored n start.transforms good recs')
    (hno : storedRecord n start.transforms p = none) :
    LooseLaz n l start (ps ++ good) (kept ++ good.take (good.length / chunkPoints * chunkPoints)) counted m
      (goOn (w.writeLeft b.buffer)) := by
  obtain ⟨recs, k1, k2⟩ := i.keeps
  obtain ⟨recs₀, k3⟩ := i.stored
  have hw := laz_left hf (w := w) (i.layout ▸ hd) (by rw [i.format]; exact hs) (by rw [i.recordLength]; exact hrl) b hsplit
    (i.transforms ▸ h) (i.transforms ▸ hno)
  rw [hw]
  have hbf := boundedBy_fields w.header good
  obtain ⟨b1, b2⟩ := bounded_more i.min i.max good
  refine ⟨i.layout, ?_, ?_, ?_, ?_, b1, b2, ?_, ⟨_, stored_append k3 h⟩, _, stored_append k1 (stored_take h _), ?_⟩
  · show (boundedBy w.header good).transforms = _; rw [hbf]; exact i.transforms
  · show (boundedBy w.header good).format = _; rw [hbf]; exact i.format
  · show (boundedBy w.header good).recordLength = _; rw [hbf]; exact i.recordLength
  · show (boundedBy w.header good).count = _; rw [hbf]; exact i.count
  · show (boundedBy w.header good).byReturn = _; rw [hbf]; exact i.byReturn
  · show w.handed ++ _ = _
    rw [k2, List.flatten_append]

end

end Pasture.Las
