import Verif.Lemmas.LasHeaderRecords

/-!
# C104: the header of a LAS file that was written describes the records in it
-/

namespace Pasture.Props

open Spec Las Flt

/-- **C104 in part**. After any sequence of writes and flushes and a last flush, the file starts with the header, and as
    many records of the point format as the header says follow the VLRs: the file has no other bytes than these and
    the extended VLRs. The numbers in the header of points by return are the numbers of records with this return number, if all
    points were written in the default layout and their return numbers fit into the bits of the format; and the box in
    the header is one around the coordinates a reader computes for the records, up to one and a half steps of the grid. Missing:
    return numbers that do not fit (`C104_return_violated`), other layouts (`C40_by_return_violated`), and the exact box
    (`C104_bounds_violated`). -/
theorem C104_partial {n : Nat} {encode : LasHeader → Bytes} {H : Nat} {template : LasHeader} {vlrs evlrs : Bytes}
    {w : RawLasWriter} (o : OpenedLas n encode H template vlrs evlrs w) (calls : List WriterCall)
    (h : ∃ recs, Stored n template.transforms (written calls) recs) :
    ∃ w', runLas encode w (calls ++ [.flush]) = .ok w' ∧ w'.writer.data.take H = encode w'.header ∧
      w'.header.count = (written calls).length ∧
      w'.writer.data.length = H + vlrs.length + w'.header.count * lasRecordLength n + evlrs.length ∧
      ((∀ b ∈ writesOf calls, b.layout = w.defaultLayout) → ReturnsFit n (written calls) →
        CountsRecordReturns n w'.header.byReturn
          (fileRecords n (H + vlrs.length) w'.header.count w'.writer.data)) ∧
      (written calls ≠ [] → OrdinaryTransforms template.transforms → NoNaN (written calls) →
        BoxesRecords (3 / 2) w'.header template.transforms
          (fileRecords n (H + vlrs.length) w'.header.count w'.writer.data)) := by
  obtain ⟨recs, h⟩ := h
  obtain ⟨f, hf, _⟩ := open_las o
  have hn := (itemsOf_eq hf).2
  obtain ⟨w', h1, h2, h3, h4, h5, _⟩ := C40_las_partial o calls h
  obtain ⟨w2, k1, k2⟩ := C47_las o calls h
  obtain rfl : w' = w2 := by rw [h1] at k1; exact Except.ok.inj k1
  have hall := Las.stored_allLen hn (written_sized calls) h
  have hlen : recs.length = (written calls).length := mapM_length h
  have hrec : fileRecords n (H + vlrs.length) w'.header.count w'.writer.data = recs := by
    rw [h3, ← hlen, k2]
    exact fileRecords_eq hall (by rw [List.length_append, o.header_size])
  refine ⟨w', h1, h2, h3, ?_, ?_, ?_⟩
  · rw [h3, ← hlen, k2]
    simp only [List.length_append, hall.flatten_length, o.header_size]
  · intro hl hfit k k1 k2
    rw [hrec, h5.2 k k1 k2, C40_default_layout _ _ hl, returns_stored hn k (written_sized calls) hfit h]
  · intro h0 ht hnan
    rw [hrec]
    exact bounded_records hn ht (written_sized calls) hnan h0 h (h4 h0 ⟨ht.1.finite, ht.2.1.finite, ht.2.2.finite⟩ hnan)

/-! ## A file with one point -/

namespace HeaderExample

/-- A point of the default layout of format 0: position (1.5, 0, 0), return number `k`. -/
def record (k : Byte) : Bytes := natLE 8 0x3ff8000000000000 ++ zeros 18 ++ [k] ++ zeros 8

/-- The default layout of format 0. -/
def layout : PointLayout := packedLayout (writtenAttributes format0)

theorem layout_solid : Solid layout := by decide +kernel

theorem layout_size : layout.size = 35 := by decide +kernel

theorem record_length (k : Byte) : (record k).length = layout.size := by
  rw [layout_size]
  simp [record, natLE_length, zeros]

/-- The point, once. -/
def batch (k : Byte) : Batch := copies layout layout_solid (record k) (record_length k) 1

theorem points_eq (k : Byte) : written [.write (batch k)] = [pointOf layout (record k)] := rfl

/-- The record in the file: coordinates 1, 0 and 0, and the lowest three bits of the return number. -/
def inFile (k : Byte) : Bytes := natLE 4 1 ++ zeros 10 ++ [k % 8] ++ zeros 5

theorem stored_nine : Stored 0 smallHeader.transforms (written [.write (batch 9)]) [inFile 9] := by
  rw [points_eq]
  unfold Stored
  decide +kernel

theorem stored_three : Stored 0 smallHeader.transforms (written [.write (batch 3)]) [inFile 3] := by
  rw [points_eq]
  unfold Stored
  decide +kernel

theorem small_ordinary : OrdinaryTransforms smallHeader.transforms := by
  have key : OrdinaryAxis ⟨.ofBits .f64 0x3ff0000000000000, .zero .f64⟩ := by
    have hs : (Flt.ofBits .f64 0x3ff0000000000000).sunits = (FloatFormat.f64.one : Int) := by decide +kernel
    have ho : (Flt.zero .f64).sunits = 0 := by decide +kernel
    have hone : (0 : ℚ) < FloatFormat.f64.one := by exact_mod_cast FloatFormat.f64.one_pos
    have hv : value (Flt.ofBits .f64 0x3ff0000000000000) = 1 := by
      rw [value_eq usable_f64, hs]
      exact div_self hone.ne'
    refine ⟨⟨by decide +kernel, by decide +kernel, ?_⟩, ?_, ?_⟩
    · show value (Flt.ofBits .f64 0x3ff0000000000000) ≠ 0
      rw [hv]; norm_num
    · show |value (Flt.ofBits .f64 0x3ff0000000000000)| ≤ _
      rw [hv, abs_one]
      exact one_le_pow₀ (by norm_num)
    · show |value (Flt.zero .f64)| ≤ 2 ^ 50 * |value (Flt.ofBits .f64 0x3ff0000000000000)|
      rw [value_eq usable_f64, ho, hv]
      norm_num
  exact ⟨key, key, key⟩

theorem no_nan (k : Byte) (h : lasPosition (pointOf layout (record k)) = lasPosition (pointOf layout (record 9))) :
    NoNaN (written [.write (batch k)]) := by
  rw [points_eq]
  intro p hp q hq
  rw [List.mem_singleton.1 hp, h] at hq
  have key : (lasPosition (pointOf layout (record 9))).all
      (fun q => !q.x.isNaN && !q.y.isNaN && !q.z.isNaN) = true := by decide +kernel
  rw [hq] at key
  simp only [Option.all_some, Bool.and_eq_true, Bool.not_eq_true'] at key
  exact ⟨key.1.1, key.1.2, key.2⟩

theorem opens : ∃ w, OpenedLas 0 smallEncode 12 smallHeader [] [] w ∧ w.defaultLayout = layout := by
  obtain ⟨w, o⟩ := opens_las (n := 0) (by omega) smallEncode small_encode smallHeader rfl small_scales [] []
  obtain ⟨f, hf, _, hl, _⟩ := open_las o
  obtain ⟨f', h1, _, h3⟩ := layouts_packed 0 (by omega)
  obtain rfl : f = f' := by rw [hf] at h1; cases h1; rfl
  obtain rfl : f = format0 := by cases hf; rfl
  refine ⟨w, o, ?_⟩
  rw [hl] at h3
  exact Except.ok.inj h3

end HeaderExample

open HeaderExample

/-- Non-vacuity: one point with return number 3, written to a file of format 0 in its default layout. -/
example : ∃ w, OpenedLas 0 smallEncode 12 smallHeader [] [] w ∧
    (∃ recs, Stored 0 smallHeader.transforms (written [.write (batch 3)]) recs) ∧
    (∀ b ∈ writesOf [.write (batch 3)], b.layout = w.defaultLayout) ∧ ReturnsFit 0 (written [.write (batch 3)]) ∧
    written [.write (batch 3)] ≠ [] ∧ OrdinaryTransforms smallHeader.transforms ∧ NoNaN (written [.write (batch 3)]) := by
  obtain ⟨w, o, hl⟩ := opens
  refine ⟨w, o, ⟨_, stored_three⟩, ?_, ?_, by rw [points_eq]; simp, small_ordinary, no_nan 3 (by decide +kernel)⟩
  · intro b hb
    rw [List.mem_singleton.1 hb, hl]
    rfl
  · rw [points_eq]
    intro p hp v hv
    rw [List.mem_singleton.1 hp, show lasValue (pointOf layout (record 3)) "ReturnNumber" = some [3] by decide +kernel] at hv
    cases hv
    decide

/-- **C104 violated**: a point with return number 9 in a file of format 0. Its record says return number 1, because there
    are three bits; the header counts it under return number 9, and no point with return number 1. -/
theorem C104_return_violated : ∃ w w', ∃ b : Batch, OpenedLas 0 smallEncode 12 smallHeader [] [] w ∧
    b.layout = w.defaultLayout ∧ runLas smallEncode w [.write b, .flush] = .ok w' ∧ w'.header.count = 1 ∧
    (fileRecords 0 12 1 w'.writer.data).map (recordReturn 0) = [1] ∧ w'.header.byReturn[0]? = some 0 ∧
    w'.header.byReturn[8]? = some 1 := by
  obtain ⟨w, o, hl⟩ := opens
  obtain ⟨w', h1, _, h3, _, h5, _⟩ := C40_las_partial o [.write (batch 9)] stored_nine
  obtain ⟨w2, k1, k2⟩ := C47_las o [.write (batch 9)] stored_nine
  obtain rfl : w' = w2 := by rw [h1] at k1; exact Except.ok.inj k1
  have hw : writtenIn w.defaultLayout [.write (batch 9)] = [pointOf layout (record 9)] := by
    rw [C40_default_layout _ _ (by
      intro b hb
      rw [List.mem_singleton.1 hb, hl]
      rfl), points_eq]
  have hrec : fileRecords 0 12 1 w'.writer.data = [inFile 9] := by
    rw [k2]
    exact fileRecords_eq (Las.stored_allLen (by omega) (written_sized _) stored_nine) (by rw [List.length_append, o.header_size]; rfl)
  rw [hw] at h5
  refine ⟨w, w', batch 9, o, hl.symm, h1, h3, ?_, ?_, ?_⟩
  · rw [hrec]
    decide +kernel
  · rw [show (0 : Nat) = 1 - 1 from rfl, h5.2 1 (by omega) (by omega)]
    decide +kernel
  · rw [show (8 : Nat) = 9 - 1 from rfl, h5.2 9 (by omega) (by omega)]
    decide +kernel

/-- **C104 violated**: the box in the header is that of the positions before they are reduced to the grid of the file. A
    point at x = 1.5, in a file with scale 1, is stored as 1; the box in the header starts at 1.5. -/
theorem C104_bounds_violated : ∃ w w', ∃ b : Batch, OpenedLas 0 smallEncode 12 smallHeader [] [] w ∧
    b.layout = w.defaultLayout ∧ runLas smallEncode w [.write b, .flush] = .ok w' ∧
    ¬ BoxesRecords 0 w'.header smallHeader.transforms (fileRecords 0 12 1 w'.writer.data) := by
  obtain ⟨w, o, hl⟩ := opens
  obtain ⟨w', h1, _, h3, h4, _⟩ := C40_las_partial o [.write (batch 9)] stored_nine
  obtain ⟨w2, k1, k2⟩ := C47_las o [.write (batch 9)] stored_nine
  obtain rfl : w' = w2 := by rw [h1] at k1; exact Except.ok.inj k1
  have hrec : fileRecords 0 12 1 w'.writer.data = [inFile 9] := by
    rw [k2]
    exact fileRecords_eq (Las.stored_allLen (by omega) (written_sized _) stored_nine) (by rw [List.length_append, o.header_size]; rfl)
  refine ⟨w, w', batch 9, o, hl.symm, h1, ?_⟩
  intro hbox
  rw [hrec] at hbox
  have ht := small_ordinary
  obtain ⟨qs, hq, htight⟩ := h4 (by rw [points_eq]; simp) ⟨ht.1.finite, ht.2.1.finite, ht.2.2.finite⟩ (no_nan 9 rfl)
  rw [points_eq] at hq
  obtain ⟨q, rest, e1, e2, rfl⟩ := mapM_cons_parts hq
  cases e2
  have key : (lasPosition (pointOf layout (record 9))).all (fun q => q.x.isFinite && q.y.isFinite && q.z.isFinite &&
      (dequantize smallHeader.transforms.x (recordInt (inFile 9) 0)).isFinite &&
      Flt.lt (dequantize smallHeader.transforms.x (recordInt (inFile 9) 0)) q.x) = true := by decide +kernel
  rw [e1] at key
  simp only [Option.all_some, Bool.and_eq_true] at key
  obtain ⟨⟨⟨⟨c1, c2⟩, c3⟩, c4⟩, c5⟩ := key
  obtain ⟨_, _, _, ⟨q', hq', e⟩, _⟩ := tight_faces htight (by simp) (by
    intro q' hq'
    rw [List.mem_singleton.1 hq']
    exact ⟨c1, c2, c3⟩) (axis := (0, P3.x, Transforms.x)) (by simp [lasAxes])
  rw [List.mem_singleton.1 hq'] at e
  have h6 := ((hbox (0, P3.x, Transforms.x) (by simp [lasAxes])).2.2.1 (inFile 9) (by simp)).1
  rw [zero_mul, sub_zero] at h6
  have h7 := (lt_iff usable_f64 _ _ c4 c1).1 c5
  have e : value q.x = value w'.header.min.x := e
  have h6 : value w'.header.min.x ≤ value (dequantize smallHeader.transforms.x (recordInt (inFile 9) 0)) := h6
  rw [← e] at h6
  exact absurd h7 (not_lt.2 h6)

end Pasture.Props
