import Verif.Lemmas.LasCopy

/-!
# C83: copying a LAS file

Reading the points of a file in its default layout and writing them to a file with the same point format, scales
and offsets gives the same records, except that rounding may move the integer coordinates.
-/

namespace Pasture.Props

open Pasture.Las BorrowedBuffer Spec

/-- The record that results from reading a record of format `n` and writing the point again; none if this fails. -/
def copyRecord (n : Nat) (t : Transforms) (raw l : PointLayout) (rec : Bytes) : Option Bytes :=
  storedRecord n t (readPoint raw l t rec (zeroPoint l))

section
variable {n : Nat} (hn : n ≤ 10) {t : Transforms} (ht : Axes OrdinaryAxis t) {f : Format} (hf : Format.new n = .ok f)
  {raw l : PointLayout} (hraw : pointLayoutFromMetadata ⟨f, none⟩ true = .ok raw)
  (hl : pointLayoutFromMetadata ⟨f, none⟩ false = .ok l) {rec : Bytes} (hr : rec.length = lasRecordLength n)
include hn ht hf hraw hl hr

theorem copy_record : ∃ rec', copyRecord n t raw l rec = some rec' ∧ CopyOf 1 rec rec' ∧
    (Axes Stable t → rec' = rec) := by
  have h12 : 12 ≤ rec.length := by
    rw [hr]
    have : ∀ n : Fin 11, 12 ≤ lasRecordLength n := by decide
    exact this ⟨n, by omega⟩
  have r0 := storedInt_range rec 0 (by omega)
  have r1 := storedInt_range rec 1 (by omega)
  have r2 := storedInt_range rec 2 (by omega)
  obtain ⟨x, hx, dx⟩ := C37_drift_partial t.x ht.1 _ r0
  obtain ⟨y, hy, dy⟩ := C37_drift_partial t.y ht.2.1 _ r1
  obtain ⟨z, hz, dz⟩ := C37_drift_partial t.z ht.2.2 _ r2
  obtain ⟨_, h⟩ := stored_read hn ht hf hraw hl hr hx hy hz
  refine ⟨_, h, ?_, ?_⟩
  · have l1 : (writeNum .i32 (.int x)).length = 4 := writeNum_length .i32 _
    have l2 : (writeNum .i32 (.int y)).length = 4 := writeNum_length .i32 _
    have l3 : (writeNum .i32 (.int z)).length = 4 := writeNum_length .i32 _
    obtain ⟨e0, e1, e2⟩ := storedInt_write x y z (rec.drop 12) (quantize_range hx) (quantize_range hy) (quantize_range hz)
    refine ⟨?_, ?_, ?_⟩
    · simp only [List.length_append, List.length_drop, l1, l2, l3]
      omega
    · rw [List.drop_left' (by simp only [List.length_append, l1, l2, l3])]
    · intro k hk
      match k, hk with
      | 0, _ => rw [e0]; exact_mod_cast dx
      | 1, _ => rw [e1]; exact_mod_cast dy
      | 2, _ => rw [e2]; exact_mod_cast dz
  · intro hs
    have ex := hs.1 _ r0.1 r0.2
    have ey := hs.2.1 _ r1.1 r1.2
    have ez := hs.2.2 _ r2.1 r2.2
    rw [hx] at ex
    rw [hy] at ey
    rw [hz] at ez
    cases ex
    cases ey
    cases ez
    rw [write_storedInt rec 0 (by omega), write_storedInt rec 1 (by omega), write_storedInt rec 2 (by omega)]
    unfold window
    conv_rhs => rw [← List.take_append_drop 12 rec]
    rw [show (12 : Nat) = 4 + 4 + 4 by rfl, List.take_add, List.take_add]
    rfl

end

/-! ## Files -/

theorem copy_all {n : Nat} (hn : n ≤ 10) {t : Transforms} (ht : Axes OrdinaryAxis t) {f : Format} (hf : Format.new n = .ok f)
    {raw l : PointLayout} (hraw : pointLayoutFromMetadata ⟨f, none⟩ true = .ok raw)
    (hl : pointLayoutFromMetadata ⟨f, none⟩ false = .ok l) : ∀ {recs : List Bytes},
    (∀ rec ∈ recs, rec.length = lasRecordLength n) →
    ∃ recs', Stored n t (recs.map fun rec => readPoint raw l t rec (zeroPoint l)) recs' ∧
      List.Forall₂ (CopyOf 1) recs recs' ∧ (Axes Stable t → recs' = recs)
  | [], _ => ⟨[], rfl, .nil, fun _ => rfl⟩
  | rec :: recs, h => by
    obtain ⟨rec', h1, h2, h3⟩ := copy_record hn ht hf hraw hl (h rec List.mem_cons_self)
    obtain ⟨recs', g1, g2, g3⟩ := copy_all hn ht hf hraw hl fun r hr => h r (List.mem_cons_of_mem _ hr)
    refine ⟨rec' :: recs', ?_, .cons h2 g2, fun hs => by rw [h3 hs, g3 hs]⟩
    unfold Stored at g1 ⊢
    unfold copyRecord at h1
    rw [List.map_cons, List.mapM_cons, h1, g1]
    rfl

/-- Buffers with the points to write. -/
theorem batches {β : Type} [BorrowedBuffer β] {l : PointLayout} (hl : Solid l) {g : Bytes → Point} :
    ∀ {bs : List β} {parts : List (List Bytes)}, List.Forall₂ (fun b part => ShowsPoints b l (part.map g)) bs parts →
    ∃ cs : List Batch, cs.flatMap Batch.points = parts.flatten.map g ∧ (∀ c ∈ cs, c.layout = l) ∧
      (∀ encode w, runLas encode w (cs.map .write) = writeAll w bs) ∧ ∀ w, runLaz w cs = writeAllLaz w bs
  | _, _, .nil => ⟨[], rfl, by simp, fun _ _ => rfl, fun _ => rfl⟩
  | b :: bs, part :: parts, .cons h hs => by
    obtain ⟨cs, h1, h2, h3, h4⟩ := batches hl hs
    refine ⟨⟨β, b, l, part.map g, h, hl⟩ :: cs, ?_, ?_, ?_, ?_⟩
    · rw [List.flatMap_cons, List.flatten_cons, List.map_append, h1]
    · intro c hc
      rcases List.mem_cons.1 hc with rfl | hc
      · rfl
      · exact h2 c hc
    · intro encode w
      show (w.write b).bind _ = (w.write b).bind _
      congr 1
      funext w
      exact h3 encode w
    · intro w
      show (w.write b).bind _ = (w.write b).bind _
      congr 1
      funext w
      exact h4 w

theorem written_map : ∀ cs : List Batch, written (cs.map .write) = cs.flatMap Batch.points
  | [] => rfl
  | c :: cs => by
    show c.points ++ written (cs.map .write) = c.points ++ cs.flatMap Batch.points
    rw [written_map cs]

theorem no_seeks (N : Nat) : ∀ (ns : List Nat) (i : Nat), seeksInRange N i (ns.map .read)
  | [], _ => trivial
  | _ :: ns, _ => no_seeks N ns _

section
variable {σ : Type} [RecordSource σ] [StoresRecords σ] [LawfulSource σ] [PointReader (RawReader σ)] [CorrectReader σ]
variable {β : Type} [OwningBuffer β] [AsMemoryMut β] [MakeBufferFromLayout β] [ReadOwner β]

theorem read_pieces {r : RawReader σ} {recs : List Bytes} (h : Standing r recs 0) (hl : Solid r.layout)
    (hr : r.layout = r.recordsLayout ∨ Readable r.recordsLayout r.layout r.transforms) (hn : recs.length < 2 ^ 63)
    (ns : List Nat) : ∃ (bs : List β) (cs : List Batch), runCalls β r (ns.map .read) = .ok bs ∧
      cs.flatMap Batch.points = (recs.take ns.sum).map (freshPoint r) ∧ (∀ c ∈ cs, c.layout = r.layout) ∧
      (∀ encode w, runLas encode w (cs.map .write) = writeAll w bs) ∧ ∀ w, runLaz w cs = writeAllLaz w bs := by
  obtain ⟨bs, h1, h2⟩ := session_generic (β := β) (ns.map .read) r recs 0 h hl hr hn (no_seeks _ _ _)
  obtain ⟨cs, g1, g2, g3, g4⟩ := batches hl h2
  rw [C38_pieces, List.drop_zero] at g1
  exact ⟨bs, cs, h1, g1, g2, g3, g4⟩

/-- What copying to a LAS file has to achieve: the file has a record for every record copied, which is the record written
    for the point that was read, with the same bytes up to the rounding of coordinates, and exactly the same bytes if coordinates do not suffer from rounding. -/
def CopiedToLas (β : Type) [OwningBuffer β] [AsMemoryMut β] [MakeBufferFromLayout β] (n : Nat) (r : RawReader σ)
    (recs : List Bytes) (encode : LasHeader → Bytes) (vlrs evlrs : Bytes) (w : RawLasWriter) : Prop :=
  ∀ ns : List Nat, recs.length ≤ ns.sum → ∃ w' recs', copyToLas β encode r w ns = .ok w' ∧
    w'.writer.data = encode w'.header ++ vlrs ++ recs'.flatten ++ evlrs ∧ w'.header.count = recs.length ∧
    recs.mapM (copyRecord n r.transforms r.recordsLayout r.layout) = some recs' ∧
    List.Forall₂ (CopyOf 1) recs recs' ∧ (Axes Stable r.transforms → recs' = recs)

/-- The same for a LAZ file: the records handed to the compressor. -/
def CopiedToLaz (β : Type) [OwningBuffer β] [AsMemoryMut β] [MakeBufferFromLayout β] (n : Nat) (r : RawReader σ)
    (recs : List Bytes) (w : RawLazWriter) : Prop :=
  ∀ ns : List Nat, recs.length ≤ ns.sum → ∃ w' recs', copyToLaz β r w ns = .ok w' ∧
    w'.handed = recs'.flatten ∧ w'.flush.header.count = recs.length ∧
    recs.mapM (copyRecord n r.transforms r.recordsLayout r.layout) = some recs' ∧
    List.Forall₂ (CopyOf 1) recs recs' ∧ (Axes Stable r.transforms → recs' = recs)

variable (β)

theorem copy_to_las {n : Nat} {f : Format} (hf : Format.new n = .ok f) {r : RawReader σ} {recs : List Bytes}
    (h : Standing r recs 0) (hs : Solid r.layout)
    (hr : r.layout = r.recordsLayout ∨ Readable r.recordsLayout r.layout r.transforms) (hc : recs.length < 2 ^ 63)
    (hraw : pointLayoutFromMetadata ⟨f, none⟩ true = .ok r.recordsLayout)
    (hl : pointLayoutFromMetadata ⟨f, none⟩ false = .ok r.layout) (hsize : r.sizeOfPoint = lasRecordLength n)
    (ht : Axes OrdinaryAxis r.transforms) {encode : LasHeader → Bytes} {H : Nat} {template : LasHeader} {vlrs evlrs : Bytes}
    {w : RawLasWriter} (o : OpenedLas n encode H template vlrs evlrs w) (htr : template.transforms = r.transforms) :
    CopiedToLas β n r recs encode vlrs evlrs w := by
  intro ns hns
  have hn := (itemsOf_eq hf).2
  obtain ⟨bs, cs, h1, h2, h3, h4, _⟩ := read_pieces (β := β) h hs hr hc ns
  rw [List.take_of_length_le hns] at h2
  obtain ⟨recs', g1, g2, g3⟩ := copy_all hn ht hf hraw hl (recs := recs) (by
    intro rec hrec
    rw [h.sizes rec hrec, hsize])
  have hw : Stored n template.transforms (written (cs.map .write)) recs' := by
    rw [written_map, h2, htr]
    exact g1
  obtain ⟨w1, w', k1, k2, k3, k4, k5, _⟩ := run_flush o (cs.map .write) hw
  have e : w' = w1.flush encode := by
    rw [runLas_append, k1] at k2
    cases k2
    rfl
  refine ⟨w', recs', ?_, k3, ?_, by unfold Stored at g1; rw [List.mapM_map] at g1; exact g1, g2, g3⟩
  · unfold copyToLas
    rw [h1]
    show (writeAll w bs).bind _ = _
    rw [← h4 encode w, k1, e]
    rfl
  · have i' : HeaderInv w.header (written (cs.map .write)) (writtenIn w.defaultLayout (cs.map .write)) w'.header := by
      rw [k4]; exact k5.header.finalize
    rw [i'.count, written_map, h2, List.length_map]

theorem copy_to_laz {n : Nat} {f : Format} (hf : Format.new n = .ok f) {r : RawReader σ} {recs : List Bytes}
    (h : Standing r recs 0) (hs : Solid r.layout)
    (hr : r.layout = r.recordsLayout ∨ Readable r.recordsLayout r.layout r.transforms) (hc : recs.length < 2 ^ 63)
    (hraw : pointLayoutFromMetadata ⟨f, none⟩ true = .ok r.recordsLayout)
    (hl : pointLayoutFromMetadata ⟨f, none⟩ false = .ok r.layout) (hsize : r.sizeOfPoint = lasRecordLength n)
    (ht : Axes OrdinaryAxis r.transforms) {template : LasHeader} {w : RawLazWriter} (o : OpenedLaz n template w)
    (htr : template.transforms = r.transforms) : CopiedToLaz β n r recs w := by
  intro ns hns
  have hn := (itemsOf_eq hf).2
  obtain ⟨bs, cs, h1, h2, h3, _, h4⟩ := read_pieces (β := β) h hs hr hc ns
  rw [List.take_of_length_le hns] at h2
  obtain ⟨recs', g1, g2, g3⟩ := copy_all hn ht hf hraw hl (recs := recs) (by
    intro rec hrec
    rw [h.sizes rec hrec, hsize])
  obtain ⟨f', hf', hd, hlay, hfm, htr', hrl, _, _, _, _, h0, i⟩ := open_laz o
  obtain rfl : f = f' := by rw [hf] at hf'; cases hf'; rfl
  have hsame : r.layout = w.defaultLayout := Except.ok.inj (hl.symm.trans hlay)
  obtain ⟨w', k1, k2, k3, _, _⟩ := run_laz hf hd (by rw [hfm]; exact o.number) (by rw [hrl]; exact o.length) cs i
    (recs := recs') (by rw [h2, htr', htr]; exact g1)
  refine ⟨w', recs', ?_, ?_, ?_, by unfold Stored at g1; rw [List.mapM_map] at g1; exact g1, g2, g3⟩
  · unfold copyToLaz
    rw [h1]
    show writeAllLaz w bs = _
    rw [← h4 w, k1]
  · rw [k3 fun b hb => .inl ((h3 b hb).trans hsame), h0, List.nil_append]
  · have i' := (show HeaderInv _ _ _ _ from k2.header).finalize
    rw [show w'.flush.header = w'.header.finalize from rfl, i'.count, List.nil_append, h2, List.length_map]

end

/-- **C83 in part**: copying a LAS file, in pieces of any sizes and through buffers of any kind, to a LAS or LAZ file with
    the same point format, scales and offsets. The copy has the same records, up to one step in each integer coordinate;
    it has exactly the same records if the scales and offsets are such that coordinates are not rounded (`C83_dyadic`).
    Missing: that integer coordinates are always the same (`C83_violated`). -/
theorem C83_las_partial {n : Nat} (hn : n ≤ 10) {t : Transforms} (ht : Axes OrdinaryAxis t) (recs : List Bytes)
    (hlen : ∀ rec ∈ recs, rec.length = lasRecordLength n) (hc : recs.length < 2 ^ 63) (data : Bytes) (offset : Nat)
    (hdata : window data offset (recs.length * lasRecordLength n) = recs.flatten)
    (β : Type) [OwningBuffer β] [AsMemoryMut β] [MakeBufferFromLayout β] [ReadOwner β] :
    ∃ f r, Format.new n = .ok f ∧ openLas data ⟨f, none⟩ recs.length t offset (lasRecordLength n) false = .ok r ∧
      r.transforms = t ∧
      (∀ encode H template vlrs evlrs w, OpenedLas n encode H template vlrs evlrs w → template.transforms = t →
        CopiedToLas β n r recs encode vlrs evlrs w) ∧
      ∀ template w, OpenedLaz n template w → template.transforms = t → CopiedToLaz β n r recs w := by
  obtain ⟨f, l, raw, h1, h2, h3, h4, h5, h6, h7, h8, _⟩ := format_layouts n hn false t
  have hst : Standing (⟨⟨data, offset⟩, recs.length, t, l, raw, 0, offset, lasRecordLength n⟩ : RawLasReader) recs 0 :=
    ⟨⟨hdata, by simp⟩, rfl, rfl, Nat.zero_le _, hlen, h4, h5, h6⟩
  refine ⟨f, ⟨⟨data, offset⟩, recs.length, t, l, raw, 0, offset, lasRecordLength n⟩, h1, ?_, rfl, ?_, ?_⟩
  · unfold openLas RawReader.ofHeader
    rw [h2, h3]
    rfl
  · intro encode H template vlrs evlrs w o htr
    exact copy_to_las β h1 hst h7 h8 hc h3 h2 rfl ht o htr
  · intro template w o htr
    exact copy_to_laz β h1 hst h7 h8 hc h3 h2 rfl ht o htr

/-- **C83 in part**, copying a LAZ file. -/
theorem C83_laz_partial {n : Nat} (hn : n ≤ 8) {t : Transforms} (ht : Axes OrdinaryAxis t) (recs : List Bytes)
    (hlen : ∀ rec ∈ recs, rec.length = lasRecordLength n) (hc : recs.length < 2 ^ 63) (offset : Nat)
    (β : Type) [OwningBuffer β] [AsMemoryMut β] [MakeBufferFromLayout β] [ReadOwner β] :
    ∃ f r, Format.new n = .ok f ∧ openLaz recs ⟨f, none⟩ recs.length t offset (lasRecordLength n) false = .ok r ∧
      r.transforms = t ∧
      (∀ encode H template vlrs evlrs w, OpenedLas n encode H template vlrs evlrs w → template.transforms = t →
        CopiedToLas β n r recs encode vlrs evlrs w) ∧
      ∀ template w, OpenedLaz n template w → template.transforms = t → CopiedToLaz β n r recs w := by
  obtain ⟨f, l, raw, h1, h2, h3, h4, h5, h6, h7, h8, h9⟩ := format_layouts n (by omega) false t
  have hst : Standing (⟨⟨lasRecordLength n, recs, 0⟩, recs.length, t, l, raw, 0, offset, lasRecordLength n⟩ : RawLazReader)
    recs 0 := ⟨⟨⟨[], (List.append_nil _).symm⟩, rfl, rfl⟩, rfl, rfl, Nat.zero_le _, hlen, h4, h5, h6⟩
  refine ⟨f, ⟨⟨lasRecordLength n, recs, 0⟩, recs.length, t, l, raw, 0, offset, lasRecordLength n⟩, h1, ?_, rfl, ?_, ?_⟩
  · unfold openLaz
    rw [h9, decide_eq_false (by omega)]
    unfold RawReader.ofHeader
    rw [h2, h3]
    rfl
  · intro encode H template vlrs evlrs w o htr
    exact copy_to_las β h1 hst h7 h8 hc h3 h2 rfl ht o htr
  · intro template w o htr
    exact copy_to_laz β h1 hst h7 h8 hc h3 h2 rfl ht o htr

/-! ## Copies of copies -/

/-- `k` copies, each of the previous one. -/
def copyTimes (n : Nat) (t : Transforms) (raw l : PointLayout) : Nat → Bytes → Option Bytes
  | 0, rec => some rec
  | k + 1, rec => (copyRecord n t raw l rec).bind (copyTimes n t raw l k)

/-- **C83 in part**: a copy of a copy, and so on `k` times, differs by at most `k` steps. -/
theorem C83_repeated_partial {n : Nat} (hn : n ≤ 10) {t : Transforms} (ht : Axes OrdinaryAxis t) {f : Format}
    (hf : Format.new n = .ok f) {raw l : PointLayout} (hraw : pointLayoutFromMetadata ⟨f, none⟩ true = .ok raw)
    (hl : pointLayoutFromMetadata ⟨f, none⟩ false = .ok l) : ∀ (k : Nat) {rec : Bytes}, rec.length = lasRecordLength n →
    ∃ rec', copyTimes n t raw l k rec = some rec' ∧ CopyOf k rec rec' ∧ (Axes Stable t → rec' = rec)
  | 0, rec, _ => ⟨rec, rfl, ⟨rfl, rfl, fun _ _ => by simp⟩, fun _ => rfl⟩
  | k + 1, rec, hr => by
    obtain ⟨rec₁, h1, h2, h3⟩ := copy_record hn ht hf hraw hl hr
    obtain ⟨rec', g1, g2, g3⟩ := C83_repeated_partial hn ht hf hraw hl k (h2.length.trans hr)
    refine ⟨rec', ?_, ⟨g2.length.trans h2.length, g2.rest.trans h2.rest, ?_⟩, fun hs => by rw [g3 hs, h3 hs]⟩
    · unfold copyTimes
      rw [h1]
      exact g1
    · intro j hj
      have a := h2.coordinates j hj
      have b := g2.coordinates j hj
      rw [abs_le] at a b ⊢
      push_cast at *
      constructor <;> omega

/-! ## Scales without rounding -/

/-- A whole number of up to 53 bits times a power of two is a float. -/
theorem dyadic_float {m k : Int} (hm : |m| ≤ 2 ^ 53) (h1 : -1000 ≤ k) (h2 : k ≤ 900) :
    ∃ x : F64, x.isFinite = true ∧ value x = m * 2 ^ k := by
  obtain ⟨e, he⟩ : ∃ e : Nat, (e : Int) = k + 1074 := ⟨(k + 1074).toNat, by omega⟩
  have hm' : m.natAbs ≤ 2 ^ 53 := by rw [Int.abs_eq_natAbs] at hm; omega
  have he' : e ≤ 1974 := by omega
  obtain ⟨j, hj⟩ := exists_units .f64 e m.natAbs hm'
  have hfin : j < FloatFormat.f64.infMag := by
    apply units_lt_inf
    have hu : FloatFormat.f64.units FloatFormat.f64.infMag = 2 ^ 2098 := by decide +kernel
    rw [hj, hu]
    refine Nat.lt_of_le_of_lt (Nat.mul_le_mul hm' (Nat.pow_le_pow_right (Nat.zero_lt_two) he')) ?_
    rw [← Nat.pow_add]
    exact Nat.pow_lt_pow_right Nat.one_lt_two (by omega)
  obtain ⟨_, h3, h4⟩ := ofUnits_exact usable_f64 (num := m * 2 ^ e) (den := 1) (by omega) (k := j)
    (by rw [Int.natAbs_mul, Int.natAbs_pow, hj, Nat.mul_one]; rfl) hfin false
  refine ⟨_, h3, ?_⟩
  rw [value_eq usable_f64]
  rw [Nat.cast_one, mul_one] at h4
  rw [h4]
  have hone : ((FloatFormat.f64.one : Nat) : ℚ) = 2 ^ (1074 : Int) := by
    rw [show FloatFormat.f64.one = 2 ^ 1074 from rfl, Nat.cast_pow]
    exact (zpow_natCast _ _).symm
  rw [hone, Int.cast_mul, Int.cast_pow, Int.cast_ofNat, mul_div_assoc, ← zpow_natCast, ← zpow_sub₀ (by norm_num), he,
    add_sub_cancel_right]

theorem dyadic_axis {a : Axis} (h : DyadicAxis a) : OrdinaryAxis a ∧ Stable a := by
  obtain ⟨hs, ho, k, m, h1, h2, hm, es, eo⟩ := h
  have hpos : (0 : ℚ) < 2 ^ k := zpow_pos (by norm_num) k
  have hord : OrdinaryAxis a := by
    refine ⟨⟨hs, ho, by rw [es]; exact hpos.ne'⟩, ?_, ?_⟩
    · rw [es, abs_of_pos hpos]
      calc (2 : ℚ) ^ k ≤ 2 ^ (900 : Int) := zpow_le_zpow_right₀ (by norm_num) h2
        _ = 2 ^ 900 := zpow_natCast 2 900
    · rw [es, eo, abs_mul, abs_of_pos hpos]
      exact mul_le_mul_of_nonneg_right (by exact_mod_cast hm) hpos.le
  refine ⟨hord, ?_⟩
  intro z hz1 hz2
  rw [abs_le] at hm
  obtain ⟨steps, s1, s2⟩ := dyadic_float (m := z) (k := k) (by rw [abs_le]; constructor <;> omega) h1 h2
  obtain ⟨pos, p1, p2⟩ := dyadic_float (m := z + m) (k := k) (by rw [abs_le]; constructor <;> omega) h1 h2
  refine C37_same_integers_partial a hord z ⟨hz1, hz2⟩ steps pos s1 p1 (by rw [s2, es]) ?_
  rw [p2]
  unfold gridPosition
  rw [es, eo]
  push_cast
  ring

/-- **C83**, scales that are powers of two and offsets that are multiples of them: copies are exact. -/
theorem C83_dyadic {t : Transforms} (h : Axes DyadicAxis t) : Axes OrdinaryAxis t ∧ Axes Stable t :=
  ⟨⟨(dyadic_axis h.1).1, (dyadic_axis h.2.1).1, (dyadic_axis h.2.2).1⟩,
    (dyadic_axis h.1).2, (dyadic_axis h.2.1).2, (dyadic_axis h.2.2).2⟩

/-! ## Rounding -/

/-- Scale 0.001, offset 0, as for all files written with a default header. -/
def millimetres : Axis := ⟨.ofBits .f64 0x3F50624DD2F1A9FC, .zero .f64⟩

/-- Scale 0.003, offset 0. -/
def threeMillimetres : Axis := ⟨.ofBits .f64 0x3F689374BC6A7EFA, .zero .f64⟩

namespace CopyExample

def transforms (a : Axis) : Transforms := ⟨a, a, a⟩

/-- A record of format 0 with x coordinate `z`. -/
def record (z : Int) : Bytes := writeNum .i32 (.int z) ++ List.replicate 16 0

def raw : PointLayout := packedLayout (rawAttributes ⟨false, false, false, false, false, 0, false⟩)
def layout : PointLayout := packedLayout (writtenAttributes ⟨false, false, false, false, false, 0, false⟩)

theorem layouts : Format.new 0 = .ok ⟨false, false, false, false, false, 0, false⟩ ∧
    pointLayoutFromMetadata ⟨⟨false, false, false, false, false, 0, false⟩, none⟩ true = .ok raw ∧
    pointLayoutFromMetadata ⟨⟨false, false, false, false, false, 0, false⟩, none⟩ false = .ok layout := by
  obtain ⟨f, h1, h2, h3⟩ := layouts_packed 0 (by omega)
  cases h1
  exact ⟨rfl, h2, h3⟩

end CopyExample

open CopyExample

/-- Axes with offset 0 and a scale of at most 1. -/
theorem ordinary_axis {a : Axis} (hs : a.scale.isFinite = true) (ho : a.offset = .zero .f64) (h0 : 0 < a.scale.sunits)
    (h1 : a.scale.sunits ≤ (FloatFormat.f64.one : Int)) : OrdinaryAxis a := by
  have hone : (0 : ℚ) < FloatFormat.f64.one := by exact_mod_cast FloatFormat.f64.one_pos
  have hv : 0 < value a.scale := by
    rw [value_eq usable_f64]
    exact div_pos (by exact_mod_cast h0) hone
  have hz : value a.offset = 0 := by
    rw [value_eq usable_f64, ho, show (Flt.zero .f64).sunits = 0 by decide +kernel]
    simp
  refine ⟨⟨hs, by rw [ho]; decide +kernel, hv.ne'⟩, ?_, by rw [hz]; simp⟩
  rw [abs_of_pos hv, value_eq usable_f64]
  calc (a.scale.sunits : ℚ) / FloatFormat.f64.one ≤ 1 := by rw [div_le_one hone]; exact_mod_cast h1
    _ ≤ 2 ^ 900 := one_le_pow₀ (by norm_num)

theorem millimetres_ordinary : OrdinaryAxis millimetres :=
  ordinary_axis (by decide +kernel) rfl (by decide +kernel) (by decide +kernel)

theorem threeMillimetres_ordinary : OrdinaryAxis threeMillimetres :=
  ordinary_axis (by decide +kernel) rfl (by decide +kernel) (by decide +kernel)

/-- The part of C83 that does not hold: with the scale of default headers, 0.001, the copy of a file with one point
    whose x coordinate is stored as 2001 has a point with 2000 instead. -/
theorem C83_violated : ∃ r w w', openLas (record 2001) ⟨⟨false, false, false, false, false, 0, false⟩, none⟩ 1
      (transforms millimetres) 0 20 false = .ok r ∧
    OpenedLas 0 smallEncode 12 { smallHeader with transforms := transforms millimetres } [] [] w ∧
    copyToLas VectorBuffer smallEncode r w [1] = .ok w' ∧ w'.writer.data = smallEncode w'.header ++ record 2000 := by
  have ht : Axes OrdinaryAxis (transforms millimetres) :=
    ⟨millimetres_ordinary, millimetres_ordinary, millimetres_ordinary⟩
  obtain ⟨w, o⟩ := opens_las (n := 0) (by omega) smallEncode small_encode
    { smallHeader with transforms := transforms millimetres } rfl (by unfold ScalesNonzero; decide +kernel) [] []
  obtain ⟨f, r, h1, h2, h3, h4, _⟩ := C83_las_partial (n := 0) (by omega) ht [record 2001] (by decide +kernel) (by decide)
    (record 2001) 0 (by decide +kernel) VectorBuffer
  obtain rfl := Except.ok.inj (layouts.1.symm.trans h1)
  obtain ⟨w', recs', g1, g2, _, g3, _⟩ := h4 smallEncode 12 _ [] [] w o rfl [1] (by decide)
  refine ⟨r, w, w', h2, o, g1, ?_⟩
  have hl : r.recordsLayout = CopyExample.raw ∧ r.layout = CopyExample.layout := by
    unfold openLas RawReader.ofHeader at h2
    rw [layouts.2.1, layouts.2.2] at h2
    cases h2
    exact ⟨rfl, rfl⟩
  rw [hl.1, hl.2, h3] at g3
  have : [record 2001].mapM (copyRecord 0 (transforms millimetres) CopyExample.raw CopyExample.layout) =
      some [record 2000] := by decide +kernel
  rw [this] at g3
  cases g3
  rw [g2, List.append_nil, List.append_nil, List.flatten_singleton]

/-- And rounding adds up: with scale 0.003, fifteen copies, each of the previous one, lower a coordinate by 15 steps. -/
theorem C83_drift_violated : Axes OrdinaryAxis (transforms threeMillimetres) ∧
    copyTimes 0 (transforms threeMillimetres) CopyExample.raw CopyExample.layout 15 (record 21964) = some (record 21949) :=
  ⟨⟨threeMillimetres_ordinary, threeMillimetres_ordinary, threeMillimetres_ordinary⟩, by decide +kernel⟩

/-- Non-vacuity: scale 0.25 and offset 100 are dyadic. -/
example : DyadicAxis ⟨.ofBits .f64 0x3fd0000000000000, .ofBits .f64 0x4059000000000000⟩ := by
  refine ⟨by decide +kernel, by decide +kernel, -2, 400, by omega, by omega, by decide, ?_, ?_⟩
  · rw [value_eq usable_f64, div_eq_iff (by exact_mod_cast FloatFormat.f64.one_pos.ne')]
    have h : (Flt.ofBits .f64 0x3fd0000000000000).sunits * 4 = (FloatFormat.f64.one : Int) := by decide +kernel
    have h' : ((Flt.ofBits .f64 0x3fd0000000000000).sunits : ℚ) * 4 = FloatFormat.f64.one := by exact_mod_cast h
    rw [← h']
    generalize ((Flt.ofBits .f64 0x3fd0000000000000).sunits : ℚ) = u
    rw [zpow_neg]
    norm_num
    ring
  · rw [value_eq usable_f64, div_eq_iff (by exact_mod_cast FloatFormat.f64.one_pos.ne')]
    have h : (Flt.ofBits .f64 0x4059000000000000).sunits = 100 * (FloatFormat.f64.one : Int) := by decide +kernel
    have h' : ((Flt.ofBits .f64 0x4059000000000000).sunits : ℚ) = 100 * FloatFormat.f64.one := by exact_mod_cast h
    rw [h']
    generalize (FloatFormat.f64.one : ℚ) = u
    rw [zpow_neg]
    norm_num

/-- Non-vacuity: a file with two records of format 0, read in pieces of one and three points, can be copied. -/
example : ([record 7, record (-3)] : List Bytes).length ≤ [1, 3].sum ∧
    (∀ rec ∈ [record 7, record (-3)], rec.length = lasRecordLength 0) ∧
    copyRecord 0 (transforms millimetres) CopyExample.raw CopyExample.layout (record 7) = some (record 7) := by
  decide +kernel

end Pasture.Props
