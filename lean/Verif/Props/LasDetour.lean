import Verif.Lemmas.LasDetour
import Verif.Props.RoundTrip

/-!
# C106: reading a LAS file into a layout, and converting what was read in its default layout
-/

namespace Pasture.Props

open BorrowedBuffer Spec Las

/-- Converting what was read in the default layout gives the points that are read directly. Both buffers are new. -/
def SameByDetour {σ : Type} [RecordSource σ] [PointReader (RawReader σ)] (r : RawReader σ) (target : PointLayout) (count : Nat)
    (τ₁ τ₂ τ₃ : Type) [OwningBuffer τ₁] [AsMemory τ₁] [AsMemoryMut τ₁] [MakeBufferFromLayout τ₁]
    [OwningBuffer τ₂] [AsMemoryMut τ₂] [MakeBufferFromLayout τ₂] [OwningBuffer τ₃] [AsMemoryMut τ₃] [MakeBufferFromLayout τ₃] : Prop :=
  ∃ (middle : τ₁) (r₁ : RawReader σ) (conv : BufferLayoutConverter) (converted : τ₂) (direct : τ₃) (r₂ : RawReader σ) (ps : List Point),
    readPoints τ₁ r count = .ok (middle, r₁) ∧
    BufferLayoutConverter.forLayoutsWithDefault (PointReader.defaultLayout r) target = .ok conv ∧
    conv.convert τ₂ middle = .ok converted ∧
    PointReader.readInto r (OwningBuffer.resize (MakeBufferFromLayout.newFromLayout target : τ₃) count) count =
      .ok (count, direct, r₂) ∧
    ps.length = count ∧ ShowsPoints converted target ps ∧ ShowsPoints direct target ps

section
variable {σ : Type} [RecordSource σ] [StoresRecords σ] [LawfulSource σ] [PointReader (RawReader σ)] [CorrectReader σ]

theorem detour_same {n : Nat} {r : RawReader σ} {recs : List Bytes} {i : Nat} (h : Standing r recs i)
    (F : FormatLayouts n r.recordsLayout r.layout r.transforms) {target : PointLayout} (ht : Solid target) (ho : PlainTarget target)
    (hc : ∀ m ∈ target.attributes, named r.layout m.name → (defaultPlan r.layout m.definition).isSome)
    (hl : Readable r.recordsLayout r.layout r.transforms) {count : Nat} (hcount : i + count ≤ recs.length)
    (τ₃ : Type) [OwningBuffer τ₃] [AsMemoryMut τ₃] [MakeBufferFromLayout τ₃] [ReadOwner τ₃] :
    SameByDetour r target count VectorBuffer VectorBuffer τ₃ ∧ SameByDetour r target count VectorBuffer HashMapBuffer τ₃ ∧
      SameByDetour r target count HashMapBuffer VectorBuffer τ₃ ∧ SameByDetour r target count HashMapBuffer HashMapBuffer τ₃ := by
  obtain ⟨conv, hconv⟩ := (C28_with_default r.layout target ht).1.2 hc
  have hb : Built r.layout target [] conv := ⟨conv, .inr hconv, rfl⟩
  have e := CorrectReader.layout_eq r
  have hlen : ((recs.drop i).take count).length = count := by
    rw [List.length_take, List.length_drop]
    omega
  -- directly
  obtain ⟨f1, f2⟩ := ReadOwner.fresh (β := τ₃) ht count
  obtain ⟨d, r₂, d1, _, _, _, d5⟩ := CorrectReader.correct h ht (.inr ((readable_iff F ht ho).2 hc)) f1 f2 (count := count) (by simp)
  rw [show min count (recs.length - i) = count by omega] at d1
  have hd := readOver_fresh r.recordsLayout target r.transforms ((recs.drop i).take count) count (by omega) (zeroPoint target)
  rw [hlen, List.take_of_length_le (by rw [readOver_length]; simp)] at hd
  rw [hd] at d5
  -- by way of the default layout
  have hmap : (((recs.drop i).take count).map (freshPoint r)).map (fun p => (defaultPlan r.layout).apply p (zeroPoint target)) =
      ((recs.drop i).take count).map fun rec => readPoint r.recordsLayout target r.transforms rec (zeroPoint target) := by
    rw [List.map_map]
    apply List.map_congr_left
    intro rec _
    exact point_detour F ht ho hc rec
  obtain ⟨m, r₁, m1, _, _, m4, m5⟩ := read_step (β := VectorBuffer) r recs i h F.solid (.inr hl) count
  obtain ⟨k, r₁', k1, _, _, k4, k5⟩ := read_step (β := HashMapBuffer) r recs i h F.solid (.inr hl) count
  have sm := vector_middle F.solid m4 m5
  have sk := hashmap_middle F.solid k4 k5
  obtain ⟨c1, e1, _, s1⟩ := C27_convert_interleaved m r.layout target F.solid ht _ sm [] (by simp) conv hb
  obtain ⟨c2, e2, _, s2⟩ := C27_convert_columnar m r.layout target F.solid ht _ sm [] (by simp) conv hb
  obtain ⟨c3, e3, _, s3⟩ := C27_convert_interleaved k r.layout target F.solid ht _ sk [] (by simp) conv hb
  obtain ⟨c4, e4, _, s4⟩ := C27_convert_columnar k r.layout target F.solid ht _ sk [] (by simp) conv hb
  rw [show planOf r.layout [] = defaultPlan r.layout from rfl, hmap] at s1 s2 s3 s4
  refine ⟨⟨m, r₁, conv, c1, d, r₂, _, m1, e ▸ hconv, e1, d1, ?_, s1, d5⟩, ⟨m, r₁, conv, c2, d, r₂, _, m1, e ▸ hconv, e2, d1, ?_, s2, d5⟩,
    ⟨k, r₁', conv, c3, d, r₂, _, k1, e ▸ hconv, e3, d1, ?_, s3, d5⟩, ⟨k, r₁', conv, c4, d, r₂, _, k1, e ▸ hconv, e4, d1, ?_, s4, d5⟩⟩ <;>
  · rw [List.length_map]
    exact hlen

end

theorem open_las_formats (n : Nat) (hn : n ≤ 10) (t : Transforms) (recs : List Bytes)
    (hlen : ∀ rec ∈ recs, rec.length = lasRecordLength n) (data : Bytes) (offset : Nat)
    (hdata : window data offset (recs.length * lasRecordLength n) = recs.flatten) :
    ∃ f r, Format.new n = .ok f ∧ openLas data ⟨f, none⟩ recs.length t offset (lasRecordLength n) false = .ok r ∧ Standing r recs 0 ∧
      FormatLayouts n r.recordsLayout r.layout r.transforms ∧ Readable r.recordsLayout r.layout r.transforms := by
  obtain ⟨f, l, raw, h1, h2, h3, h4, h5, h6, h7, h8, _⟩ := format_layouts n hn false t
  obtain ⟨f', raw', l', g1, g2, g3, F⟩ := formatLayouts t n hn
  obtain rfl : f = f' := by rw [h1] at g1; exact Except.ok.inj g1
  obtain rfl : raw = raw' := by rw [h3] at g2; exact Except.ok.inj g2
  obtain rfl : l = l' := by rw [h2] at g3; exact Except.ok.inj g3
  refine ⟨f, ⟨⟨data, offset⟩, recs.length, t, l, raw, 0, offset, lasRecordLength n⟩, h1, ?_, ?_, F, h8.resolve_left F.differ⟩
  · unfold openLas RawReader.ofHeader
    rw [h2, h3]
    rfl
  · exact ⟨⟨hdata, by simp⟩, rfl, rfl, Nat.zero_le _, hlen, h4, h5, h6⟩

theorem open_laz_formats (n : Nat) (hn : n ≤ 8) (t : Transforms) (recs : List Bytes)
    (hlen : ∀ rec ∈ recs, rec.length = lasRecordLength n) (offset : Nat) :
    ∃ f r, Format.new n = .ok f ∧ openLaz recs ⟨f, none⟩ recs.length t offset (lasRecordLength n) false = .ok r ∧ Standing r recs 0 ∧
      FormatLayouts n r.recordsLayout r.layout r.transforms ∧ Readable r.recordsLayout r.layout r.transforms := by
  obtain ⟨f, l, raw, h1, h2, h3, h4, h5, h6, h7, h8, h9⟩ := format_layouts n (by omega) false t
  obtain ⟨f', raw', l', g1, g2, g3, F⟩ := formatLayouts t n (by omega)
  obtain rfl : f = f' := by rw [h1] at g1; exact Except.ok.inj g1
  obtain rfl : raw = raw' := by rw [h3] at g2; exact Except.ok.inj g2
  obtain rfl : l = l' := by rw [h2] at g3; exact Except.ok.inj g3
  refine ⟨f, ⟨⟨lasRecordLength n, recs, 0⟩, recs.length, t, l, raw, 0, offset, lasRecordLength n⟩, h1, ?_, ?_, F, h8.resolve_left F.differ⟩
  · unfold openLaz RawReader.ofHeader
    rw [h9, decide_eq_false (by omega), h2, h3]
    rfl
  · exact ⟨⟨⟨[], by simp⟩, rfl, rfl⟩, rfl, rfl, Nat.zero_le _, hlen, h4, h5, h6⟩

/-- The same for all kinds of buffers. -/
def SameByEveryDetour {σ : Type} [RecordSource σ] [PointReader (RawReader σ)] (r : RawReader σ) (target : PointLayout) (count : Nat) : Prop :=
  (SameByDetour r target count VectorBuffer VectorBuffer VectorBuffer ∧ SameByDetour r target count VectorBuffer HashMapBuffer VectorBuffer ∧
    SameByDetour r target count HashMapBuffer VectorBuffer VectorBuffer ∧ SameByDetour r target count HashMapBuffer HashMapBuffer VectorBuffer) ∧
  (SameByDetour r target count VectorBuffer VectorBuffer HashMapBuffer ∧ SameByDetour r target count VectorBuffer HashMapBuffer HashMapBuffer ∧
    SameByDetour r target count HashMapBuffer VectorBuffer HashMapBuffer ∧ SameByDetour r target count HashMapBuffer HashMapBuffer HashMapBuffer)

section
variable {σ : Type} [RecordSource σ] [StoresRecords σ] [LawfulSource σ] [PointReader (RawReader σ)] [CorrectReader σ]

theorem detour_anywhere {n : Nat} {r : RawReader σ} {recs : List Bytes}
    (F : FormatLayouts n r.recordsLayout r.layout r.transforms) {target : PointLayout} (ht : Solid target) (ho : PlainTarget target)
    (hl : Readable r.recordsLayout r.layout r.transforms) {conv : BufferLayoutConverter}
    (hc : BufferLayoutConverter.forLayoutsWithDefault r.layout target = .ok conv) {r' : RawReader σ} {i count : Nat}
    (hsame : SameFile r r') (h : Standing r' recs i) (hcount : i + count ≤ recs.length) : SameByEveryDetour r' target count := by
  obtain ⟨_, e2, e3, e4, _⟩ := hsame
  rw [← e2, ← e3, ← e4] at F hl
  rw [← e3] at hc
  have hc' := (C28_with_default r'.layout target ht).1.1 ⟨conv, hc⟩
  exact ⟨detour_same h F ht ho hc' hl hcount VectorBuffer, detour_same h F ht ho hc' hl hcount HashMapBuffer⟩

end

/-- **C106 in part**, LAS files. Wherever a reader stands in a file: if the default layout can be converted to `target`, converting
    points that were read gives what is read directly; and if not, a direct read is refused as well. -/
theorem C106_las_partial (n : Nat) (hn : n ≤ 10) (t : Transforms) (recs : List Bytes)
    (hlen : ∀ rec ∈ recs, rec.length = lasRecordLength n) (data : Bytes) (offset : Nat)
    (hdata : window data offset (recs.length * lasRecordLength n) = recs.flatten) (target : PointLayout) (ht : Solid target)
    (ho : PlainTarget target) :
    ∃ f r, Format.new n = .ok f ∧ openLas data ⟨f, none⟩ recs.length t offset (lasRecordLength n) false = .ok r ∧
      ∀ r' i count, SameFile r r' → Standing r' recs i → i + count ≤ recs.length →
        (∀ conv, BufferLayoutConverter.forLayoutsWithDefault r.layout target = .ok conv → SameByEveryDetour r' target count) ∧
        (BufferLayoutConverter.forLayoutsWithDefault r.layout target = .error .panic → 0 < count → ∀ b : VectorBuffer,
          layout b = target → PointReader.readInto r' b count = .error .panic ∨ PointReader.readInto r' b count = .error .err) := by
  obtain ⟨f, r, h1, h2, _, F, hl⟩ := open_las_formats n hn t recs hlen data offset hdata
  refine ⟨f, r, h1, h2, fun r' i count hsame h hcount => ⟨fun conv hc => detour_anywhere F ht ho hl hc hsame h hcount, ?_⟩⟩
  intro hp hpos b hb
  have hno : ¬ ∀ m ∈ target.attributes, named r.layout m.name → (defaultPlan r.layout m.definition).isSome := by
    intro hc
    obtain ⟨conv, hc⟩ := (C28_with_default r.layout target ht).1.2 hc
    rw [hc] at hp
    cases hp
  have hnr := fun hr => hno ((readable_iff F ht ho).1 hr)
  obtain ⟨_, e2, e3, e4, _⟩ := hsame
  rw [← e2, ← e4] at hnr
  have hne : target ≠ r'.recordsLayout := by
    rw [e4]
    rintro rfl
    obtain ⟨m, hm, e⟩ := List.mem_map.1 F.local_mem
    exact ho.names m hm (by show m.definition.name ∈ _; rw [e]; decide)
  subst hb
  exact C38_unreadable r' recs i h b ht count hne hnr hpos (by omega)

/-- **C106 in part**, LAZ files. -/
theorem C106_laz_partial (n : Nat) (hn : n ≤ 8) (t : Transforms) (recs : List Bytes)
    (hlen : ∀ rec ∈ recs, rec.length = lasRecordLength n) (offset : Nat) (target : PointLayout) (ht : Solid target)
    (ho : PlainTarget target) :
    ∃ f r, Format.new n = .ok f ∧ openLaz recs ⟨f, none⟩ recs.length t offset (lasRecordLength n) false = .ok r ∧
      ∀ r' i count, SameFile r r' → Standing r' recs i → i + count ≤ recs.length →
        ∀ conv, BufferLayoutConverter.forLayoutsWithDefault r.layout target = .ok conv → SameByEveryDetour r' target count := by
  obtain ⟨f, r, h1, h2, _, F, hl⟩ := open_laz_formats n hn t recs hlen offset
  exact ⟨f, r, h1, h2, fun r' i count hsame h hcount conv hc => detour_anywhere F ht ho hl hc hsame h hcount⟩

/-! ## The full claim is false -/

/-- Open a file with one record. -/
def openOne (n : Nat) (rec : Bytes) : Out RawLasReader := do
  let f ← Format.new n
  openLas rec ⟨f, none⟩ 1 ⟨farAxis, farAxis, farAxis⟩ 0 (lasRecordLength n) false

/-- Read in the default layout and convert. -/
def byDetour (r : RawLasReader) (target : PointLayout) : Out Bytes := do
  let (b, _) ← readPoints VectorBuffer r 1
  let conv ← BufferLayoutConverter.forLayoutsWithDefault (PointReader.defaultLayout r) target
  let c ← conv.convert VectorBuffer b
  pure c.storage

/-- Read in the target layout. -/
def directly (r : RawLasReader) (target : PointLayout) : Out Bytes := do
  let (_, b, _) ← PointReader.readInto r (OwningBuffer.resize (MakeBufferFromLayout.newFromLayout target : VectorBuffer) 1) 1
  pure b.storage

def wholePosition : PointLayout := ⟨[⟨⟨"Position3D", .vec3i32⟩, 0⟩], 12, 4⟩

/-- Positions in single precision are others if they are read directly: x = 0.216 instead of 0.217. -/
theorem C106_single_violated :
    (openOne 0 (largeRecord 0) >>= fun r => byDetour r onlyPosition) = .ok [63, 53, 94, 62, 253, 17, 131, 198, 252, 17, 131, 198] ∧
    (openOne 0 (largeRecord 0) >>= fun r => directly r onlyPosition) = .ok [27, 47, 93, 62, 253, 17, 131, 198, 252, 17, 131, 198] := by
  constructor <;> decide +kernel

/-- Positions in whole numbers are refused if they are read directly. -/
theorem C106_whole_violated :
    (openOne 0 (largeRecord 0) >>= fun r => byDetour r wholePosition) = .ok [0, 0, 0, 0, 120, 190, 255, 255, 120, 190, 255, 255] ∧
    (openOne 0 (largeRecord 0) >>= fun r => directly r wholePosition) = .error .err := by
  constructor <;> decide +kernel

/-! ### A concrete case

Format 6; return numbers as `u32`, intensities as `f32`, and an attribute that the file does not have. -/

def mixedTarget : PointLayout :=
  ⟨[⟨⟨"ReturnNumber", .u32⟩, 0⟩, ⟨⟨"Position3D", .vec3f64⟩, 8⟩, ⟨⟨"Extra", .u8⟩, 32⟩, ⟨⟨"Intensity", .f32⟩, 36⟩], 40, 8⟩

def mixedRecord : Bytes := [1, 0, 0, 1, 5, 0, 0, 0, 7, 0, 0, 0, 3, 1, 0x2d] ++ zeros 15

example : Solid mixedTarget ∧ PlainTarget mixedTarget ∧ mixedRecord.length = lasRecordLength 6 ∧
    window mixedRecord 0 (1 * lasRecordLength 6) = [mixedRecord].flatten ∧
    (openOne 6 mixedRecord >>= fun r => byDetour r mixedTarget) = (openOne 6 mixedRecord >>= fun r => directly r mixedTarget) ∧
    (openOne 6 mixedRecord >>= fun r => directly r mixedTarget) = .ok [13, 0, 0, 0, 0, 0, 0, 0,
      0, 0, 158, 239, 167, 198, 203, 63, 225, 122, 20, 174, 63, 98, 208, 192, 59, 223, 79, 141, 63, 98, 208, 192,
      0, 0, 0, 0, 0, 128, 129, 67] := by
  refine ⟨⟨by decide, by decide, by decide, by decide, by decide⟩, ⟨by decide, by decide⟩, by decide, by decide +kernel, by decide +kernel,
    by decide +kernel⟩

end Pasture.Props
