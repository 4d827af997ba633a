import Verif.Model.PntsFiles
import Verif.Props.Pnts

/-!
# C55 for points without storable attributes; C84 for `.pnts` files
-/

namespace Pasture.Props

open Spec Spec.Pnts Tiles3d Las BaseIo PntsWriter PntsReader BorrowedBuffer BorrowedMutBuffer OwningBuffer PntsCalls

section
variable {J : JsonText} {f : F64 → F64}

/-- A `.pnts` file without attributes. -/
theorem open_bare (hJ : Faithful J f) {file : Bytes} {n : Nat} (hn : n < 2 ^ 64) {center : Option (P3 F64)}
    (h : IsPnts J file n center []) :
    ((∀ c, center = some c → FiniteCenter c) → ∃ r, fromRead J file = .ok r ∧ r.layout = PointLayout.default ∧
      r.metadata.pointsLength = n ∧ r.currentPointIndex = 0) ∧
    (∀ c, center = some c → ¬ FiniteCenter c → fromRead J file = .error .err) := by
  have hk : KnownNames [] := ⟨List.nodup_nil, fun p hp => absurd hp List.not_mem_nil⟩
  obtain ⟨t, t1, t2⟩ := table_read hJ h hk hn
  obtain ⟨hd, d1, d2, d3⟩ := header_read h
  have hnone : ∀ a ∈ readAttributes, t.lookup a.1 = none := by
    intro a ha
    have hmem : a.1 ∈ ["POSITION", "RGBA", "RGB", "NORMAL"] := List.mem_map_of_mem (f := Prod.fst) ha
    apply t2.absent
    · intro e; rw [e] at hmem; exact absurd hmem (by decide)
    · left; intro e; rw [e] at hmem; exact absurd hmem (by decide)
    · exact List.not_mem_nil
  have hlay : layoutFromFeatureTable t = .ok (PointLayout.default, []) := by
    unfold layoutFromFeatureTable
    generalize readAttributes = as at hnone
    induction as with
    | nil => rfl
    | cons a as ih =>
      rw [forLoop_cons, show layoutStep t (PointLayout.default, []) a = .ok (PointLayout.default, []) by
        unfold layoutStep; rw [hnone a (by simp)]; rfl]
      exact ih fun x hx => hnone x (by simp [hx])
  have hmeta := metadata_read t2 hk
  constructor
  · intro hc
    have hmeta : ∃ md, metadataFromFeatureTable t = .ok md ∧ md.pointsLength = n := by
      rw [hmeta]
      cases center with
      | none => exact ⟨_, rfl, rfl⟩
      | some c =>
        dsimp only
        rw [if_pos (hc c rfl)]
        exact ⟨_, rfl, rfl⟩
    obtain ⟨md, m1, m2⟩ := hmeta
    refine ⟨⟨file, md, PointLayout.default, 0, [], .absolute⟩, ?_, rfl, m2, rfl⟩
    unfold fromRead
    simp only [d1, bind, Except.bind, d2, d3, t1, hlay, m1, bailIf, ne_eq, not_true_eq_false, decide_false]
    rfl
  · intro c hc hnf
    subst hc
    dsimp only at hmeta
    rw [if_neg hnf] at hmeta
    unfold fromRead
    simp only [d1, bind, Except.bind, d2, d3, t1, hlay, hmeta, bailIf, ne_eq, not_true_eq_false, decide_false]
    rfl

/-- Reading from it: points without attributes. -/
theorem bare_read {r : PntsReader} (h : r.layout = PointLayout.default) (hi : r.currentPointIndex < r.metadata.pointsLength)
    {count : Nat} (hc : 0 < count) :
    ∃ r', (∀ {β : Type} [BorrowedMutBuffer β] [AsMemoryMut β] (b : β), layout b = PointLayout.default →
      PointReader.readInto r b count = .ok (min (r.metadata.pointsLength - r.currentPointIndex) count, b, r')) ∧
      r'.layout = PointLayout.default ∧ r'.metadata = r.metadata ∧
      r'.currentPointIndex = r.currentPointIndex + min (r.metadata.pointsLength - r.currentPointIndex) count := by
  refine ⟨{ r with currentPointIndex := r.currentPointIndex + min (r.metadata.pointsLength - r.currentPointIndex) count },
    ?_, h, rfl, rfl⟩
  intro β _ _ b hb
  show PntsReader.readInto r b count = _
  have hloop : forLoop r.layout.attributes b
      (r.readAttribute (BorrowedBuffer.layout b) (min (r.metadata.pointsLength - r.currentPointIndex) count)) = .ok b := by
    rw [h]
    rfl
  have hctr : ∀ q : PntsReader, q.applyRtcCenter b = .ok b := by
    intro q
    unfold applyRtcCenter
    rw [hb]
    cases q.metadata.rtcCenter <;> rfl
  unfold PntsReader.readInto
  simp only [bailIf, bind, Except.bind, hloop, hctr]
  rw [decide_eq_false (by omega), if_neg (by decide)]
  dsimp only
  by_cases hm : r.mode = .absolute
  · rw [if_pos hm]; rfl
  · rw [if_neg hm]; rfl

/-- **C55, points without any attribute that a `.pnts` file can store**: the file has as many points as were written, and no
    attributes; reading in pieces gives all of them (so nothing that can be stored is lost). -/
theorem C55_no_attributes (hJ : Faithful J f) {order : Converters → Converters} (ho : ∀ c, (order c).Perm c)
    {l : PointLayout} (hl : Solid l) (hno : storedAttributes l = []) {center : Option (P3 F64)} {w w' : PntsWriter}
    (hw : openPnts l center = .ok w) (calls : List WriterCall) (hb : ∀ b ∈ writesOf calls, b.layout = l)
    (hcount : (beforeFlush calls).length < 2 ^ 64) (hrun : runPnts J order w (calls ++ [.flush]) = .ok w') :
    ((∀ c, center = some c → FiniteCenter c) → ∃ r, fromRead J w'.writer.data = .ok r ∧ r.layout = PointLayout.default ∧
      r.metadata.pointsLength = (beforeFlush calls).length ∧ r.currentPointIndex = 0) ∧
    (∀ c, center = some c → ¬ FiniteCenter c → fromRead J w'.writer.data = .error .err) := by
  obtain ⟨parts, entries, h1, h2, h3, h4, h5⟩ := C54 J ho hl hw calls hb
  have hs : fileSize J entries parts < 2 ^ 32 := by
    by_contra hc
    rw [h5 (by omega)] at hrun
    cases hrun
  obtain ⟨w'', g1, g2, g3⟩ := h4 hs
  rw [g1] at hrun
  cases hrun
  rw [hno, List.map_nil] at h3
  have : parts = [] := List.map_eq_nil_iff.1 h3.eq_nil
  subst this
  exact open_bare hJ hcount g2

/-- The points of such a file, in either buffer. -/
theorem C55_no_attributes_read {r : PntsReader} (h : r.layout = PointLayout.default)
    (hi : r.currentPointIndex < r.metadata.pointsLength) {count : Nat} (hc : 0 < count) :
    (∃ b r', readPoints VectorBuffer r count = .ok (b, r') ∧ layout b = PointLayout.default ∧
      len b = min (r.metadata.pointsLength - r.currentPointIndex) count ∧ r'.layout = PointLayout.default ∧
      r'.metadata = r.metadata ∧ r'.currentPointIndex = r.currentPointIndex + len b) ∧
    (∃ b r', readPoints HashMapBuffer r count = .ok (b, r') ∧ layout b = PointLayout.default ∧
      len b = min (r.metadata.pointsLength - r.currentPointIndex) count ∧ r'.layout = PointLayout.default ∧
      r'.metadata = r.metadata ∧ r'.currentPointIndex = r.currentPointIndex + len b) := by
  obtain ⟨r', h1, h2, h3, h4⟩ := bare_read h hi hc
  constructor
  · refine ⟨OwningBuffer.resize (OwningBuffer.resize (MakeBufferFromLayout.newFromLayout r.layout : VectorBuffer) count)
      (min (r.metadata.pointsLength - r.currentPointIndex) count), r', ?_, h, rfl, h2, h3, h4⟩
    unfold readPoints
    dsimp only
    rw [h1 (β := VectorBuffer) _ h]
    rfl
  · refine ⟨OwningBuffer.resize (OwningBuffer.resize (MakeBufferFromLayout.newFromLayout r.layout : HashMapBuffer) count)
      (min (r.metadata.pointsLength - r.currentPointIndex) count), r', ?_, h, rfl, h2, h3, h4⟩
    unfold readPoints
    dsimp only
    rw [h1 (β := HashMapBuffer) _ h]
    rfl

/-! ## C84 -/

theorem writeAll_run {order : Converters → Converters} (B : Batch) :
    writeAllPnts J order B.buffer = (openPnts (layout B.buffer) none).bind fun w =>
      (runPnts J order w [.write B, .flush]).bind fun w => .ok w.writer.data := by
  unfold writeAllPnts openPnts
  cases fromWriteAndLayout ⟨[], 0⟩ (layout B.buffer) with
  | error e => rfl
  | ok w =>
    show (w.write order B.buffer).bind _ = ((w.write order B.buffer).bind _).bind _
    cases w.write order B.buffer with
    | error e => rfl
    | ok w =>
      show (w.flush J).bind _ = ((w.flush J).bind _).bind _
      cases w.flush J <;> rfl

/-- When `write_all` writes a `.pnts` file: if every attribute the format knows can be converted to the type it has there, and
    the file is shorter than 4 GiB. -/
theorem C84_pnts_writes (J : JsonText) {order : Converters → Converters} (ho : ∀ c, (order c).Perm c) {l : PointLayout}
    (hl : Solid l) (hst : Storable l) {β : Type} [BorrowedBuffer β] (b : β) (ps : List Point) (hs : ShowsPoints b l ps) :
    ∃ parts entries, entries.Perm (tableEntries ps.length none parts) ∧
      (parts.map fun p => (p.semantic, p.data)).Perm
        ((storedAttributes l).map fun s => (s.1, columnOf s.2 (ps.map (storedPoint l)))) ∧
      (fileSize J entries parts < 2 ^ 32 → ∃ file, writeAllPnts J order b = .ok file ∧
        IsPnts J file ps.length none parts ∧ file.length = fileSize J entries parts) ∧
      (2 ^ 32 ≤ fileSize J entries parts → writeAllPnts J order b = panicked) := by
  let B : Batch := ⟨β, b, l, ps, hs, hl⟩
  obtain ⟨w, hw⟩ := (C54_opens hl none).2 hst
  have hrun : writeAllPnts J order b = (runPnts J order w ([.write B] ++ [.flush])).bind fun w => .ok w.writer.data := by
    rw [show writeAllPnts J order b = _ from writeAll_run B, show layout B.buffer = l from hs.layout_eq, hw]
    rfl
  have hbf : beforeFlush [.write B] = ps := List.append_nil _
  obtain ⟨parts, entries, _, h2, h3, h4, h5⟩ := C54 J ho hl hw [.write B] (by
    intro x hx
    obtain rfl := List.mem_singleton.1 hx
    rfl)
  rw [hbf] at h2 h3 h4
  refine ⟨parts, entries, h2, h3, ?_, ?_⟩
  · intro h
    obtain ⟨w', g1, g2, g3⟩ := h4 h
    refine ⟨w'.writer.data, ?_, g2, g3⟩
    rw [hrun, g1]
    rfl
  · intro h
    rw [hrun, h5 h]
    rfl

/-- **C84 in part, `.pnts` files**: points that `write_all` writes are those that `read_all` returns, with the attributes the
    format knows, converted to the types it has for them. Missing: no points (`C84_pnts_empty_violated`), and points without
    such attributes, of which the number remains (`C55_no_attributes`). -/
theorem C84_pnts_partial (hJ : Faithful J f) {order : Converters → Converters} (ho : ∀ c, (order c).Perm c)
    {l : PointLayout} (hl : Solid l) (hst : Storable l) (hne : storedAttributes l ≠ []) {β : Type} [BorrowedBuffer β] (b : β)
    (ps : List Point) (hs : ShowsPoints b l ps) (hps : ps ≠ []) {file : Bytes} (hfile : writeAllPnts J order b = .ok file)
    (max : Nat) :
    ∃ lay : PointLayout, lay.attributes.map Member.definition = (storedAttributes l).map Prod.snd ∧
      (∃ c : VectorBuffer, readAllPnts J VectorBuffer max file = .ok c ∧ ShowsPoints c lay (ps.map (storedPoint l))) ∧
      (∃ c : HashMapBuffer, readAllPnts J HashMapBuffer max file = .ok c ∧ ShowsPoints c lay (ps.map (storedPoint l))) := by
  let B : Batch := ⟨β, b, l, ps, hs, hl⟩
  obtain ⟨w, hw⟩ := (C54_opens hl none).2 hst
  rw [show writeAllPnts J order b = _ from writeAll_run B, show layout B.buffer = l from hs.layout_eq, hw] at hfile
  obtain ⟨w', hrun, he⟩ := bind_ok (show (runPnts J order w ([.write B] ++ [.flush])).bind _ = _ from hfile)
  cases he
  have hbf : beforeFlush [.write B] = ps := List.append_nil _
  obtain ⟨r, r1, _, r3, r4⟩ := C55_partial hJ ho hl hne (center := none) (by intro c h; cases h) hw [.write B] (by
    intro x hx
    obtain rfl := List.mem_singleton.1 hx
    rfl) hrun
  rw [hbf] at r4
  have hpos : 0 < ps.length := List.length_pos_iff.2 hps
  obtain ⟨⟨vs, v1, v2⟩, ⟨hs', h1, h2⟩⟩ := r4 r.mode [.read ps.length] trivial ⟨⟨hpos, hpos⟩, trivial⟩
  have hcount : r.metadata.pointsLength = ps.length := by
    obtain ⟨r', q1, q2, _⟩ := (pnts_open_generic hJ ho hl hne hw [.write B] (by
      intro x hx
      obtain rfl := List.mem_singleton.1 hx
      rfl) hrun).1 (by intro c h; cases h)
    rw [r1] at q1
    cases q1
    rw [q2.count, List.length_map, hbf]
  have hplace : ∀ qs : List Point, qs.map (Pnts.placed r.mode ((none : Option (P3 F64)).map (textCenter f))) = qs := by
    intro qs
    conv => rhs; rw [← List.map_id qs]
    apply List.map_congr_left
    intro p _
    show Pnts.placed r.mode none p = p
    unfold Pnts.placed
    cases r.mode <;> rfl
  have hparts : partsRead (ps.map (storedPoint l)) 0 [.read ps.length] = [ps.map (storedPoint l)] := by
    show [((ps.map (storedPoint l)).drop 0).take ps.length] = _
    rw [List.drop_zero, List.take_of_length_le (by simp)]
  have key : ∀ {γ : Type} [OwningBuffer γ] [AsMemoryMut γ] [MakeBufferFromLayout γ] (bs : List γ) (P : γ → List Point → Prop),
      runCalls γ (r.setMode r.mode) [.read ps.length] = .ok bs →
      List.Forall₂ P bs (partsRead (ps.map (storedPoint l)) 0 [.read ps.length]) →
      ∃ c, readAllPnts J γ max w'.writer.data = .ok c ∧ P c (ps.map (storedPoint l)) := by
    intro γ _ _ _ bs P hb hP
    rw [hparts] at hP
    obtain ⟨⟨c, r2⟩, e1, e2⟩ := bind_ok (show (readPoints γ r ps.length).bind _ = _ from hb)
    cases e2
    cases hP with
    | cons hP _ =>
      refine ⟨c, ?_, hP⟩
      unfold readAllPnts readAll
      rw [r1]
      show (readPoints γ r ((some r.metadata.pointsLength).getD max)).bind _ = _
      rw [Option.getD_some, hcount, e1]
      rfl
  refine ⟨r.layout, r3, ?_, ?_⟩
  · obtain ⟨c, c1, c2⟩ := key vs _ v1 v2
    exact ⟨c, c1, by have := c2.2; rwa [hplace] at this⟩
  · obtain ⟨c, c1, c2⟩ := key hs' _ h1 h2
    exact ⟨c, c1, by have := c2.2; rwa [hplace] at this⟩

/-- **C84 violated**: a buffer without points is written to a `.pnts` file, which `read_all` cannot read. -/
theorem C84_pnts_empty_violated (hJ : Faithful J f) {order : Converters → Converters} (ho : ∀ c, (order c).Perm c)
    {l : PointLayout} (hl : Solid l) (hst : Storable l) (hne : storedAttributes l ≠ []) {β : Type} [BorrowedBuffer β] (b : β)
    (hs : ShowsPoints b l []) {file : Bytes} (hfile : writeAllPnts J order b = .ok file) (max : Nat) :
    readAllPnts J VectorBuffer max file = .error .err ∧ readAllPnts J HashMapBuffer max file = .error .err := by
  let B : Batch := ⟨β, b, l, [], hs, hl⟩
  obtain ⟨w, hw⟩ := (C54_opens hl none).2 hst
  rw [show writeAllPnts J order b = _ from writeAll_run B, show layout B.buffer = l from hs.layout_eq, hw] at hfile
  obtain ⟨w', hrun, he⟩ := bind_ok (show (runPnts J order w ([.write B] ++ [.flush])).bind _ = _ from hfile)
  cases he
  obtain ⟨r, q1, q2, _⟩ := (pnts_open_generic hJ ho hl hne hw [.write B] (by
    intro x hx
    obtain rfl := List.mem_singleton.1 hx
    rfl) hrun).1 (by intro c h; cases h)
  obtain ⟨_, e1, e2⟩ := C55_end_violated q2 (count := r.metadata.pointsLength) (.inl q2.count)
  constructor
  · unfold readAllPnts readAll
    rw [q1]
    show (readPoints VectorBuffer r r.metadata.pointsLength).bind _ = _
    rw [e1]
    rfl
  · unfold readAllPnts readAll
    rw [q1]
    show (readPoints HashMapBuffer r r.metadata.pointsLength).bind _ = _
    rw [e2]
    rfl

end

/-- A point 5,500 km east: its coordinates are (5500000.25, 0, 0). -/
def eastRecord : Bytes := writeNum .f64 (.double (.ofBits .f64 0x4154FB1810000000)) ++ zeros 16

/-- A layout with positions only. -/
def eastLayout : PointLayout := ⟨[⟨⟨"Position3D", .vec3f64⟩, 0⟩], 24, 8⟩

theorem east_solid : Solid eastLayout := by decide +kernel

theorem east_length : eastRecord.length = 24 := by decide

/-- The point as a buffer. -/
def east : Batch := copies eastLayout east_solid eastRecord east_length 1

/-- **C84 violated**: `write_all` stores positions in single precision and sets no center, so that a coordinate of 5500000.25 m
    comes back as 5500000 m. (The theorems above apply to this buffer.) -/
theorem C84_pnts_precision_violated : ∃ (file : Bytes) (c : VectorBuffer) (lay : PointLayout),
    Storable eastLayout ∧ east.points.length = 1 ∧
    writeAllPnts Codec.codec id east.buffer = .ok file ∧ readAllPnts Codec.codec VectorBuffer 0 file = .ok c ∧
    ShowsPoints c lay [[(⟨"Position3D", .vec3f32⟩, writeNum .f32 (.single (.ofBits .f32 0x4AA7D8C0)) ++ zeros 8)]] ∧
    value (.ofBits .f64 0x4154FB1810000000 : F64) = 5500000 + 1 / 4 ∧ value (.ofBits .f32 0x4AA7D8C0 : F32) = 5500000 := by
  have hst : Storable eastLayout := by
    unfold Storable
    rw [show storedAttributes eastLayout = [("POSITION", ⟨"Position3D", .vec3f32⟩)] by decide +kernel]
    decide +kernel
  have hw : ∃ file, writeAllPnts Codec.codec id east.buffer = .ok file := by
    have h : (match writeAllPnts Codec.codec id east.buffer with
      | .ok _ => true
      | .error _ => false) = true := by decide +kernel
    cases hf : writeAllPnts Codec.codec id east.buffer with
    | ok file => exact ⟨file, rfl⟩
    | error e => rw [hf] at h; cases h
  obtain ⟨file, hf⟩ := hw
  obtain ⟨lay, _, ⟨c, h1, h2⟩, _⟩ := C84_pnts_partial Codec.codec_faithful (order := id) (fun c => List.Perm.refl _) east_solid
    hst (by decide +kernel) east.buffer east.points east.shows (by decide) hf 0
  refine ⟨file, c, lay, hst, by decide, hf, h1, ?_, ?_, ?_⟩
  · rwa [show east.points.map (storedPoint eastLayout) =
      [[(⟨"Position3D", .vec3f32⟩, writeNum .f32 (.single (.ofBits .f32 0x4AA7D8C0)) ++ zeros 8)]] by decide +kernel] at h2
  · have hk : 4 * (Flt.ofBits .f64 0x4154FB1810000000 : F64).sunits = 22000001 * (FloatFormat.f64.one : ℤ) := by decide +kernel
    have hk' : 4 * ((Flt.ofBits .f64 0x4154FB1810000000 : F64).sunits : ℚ) = 22000001 * FloatFormat.f64.one := by
      exact_mod_cast hk
    have hone : (0 : ℚ) < FloatFormat.f64.one := by exact_mod_cast FloatFormat.f64.one_pos
    rw [value_eq usable_f64, div_eq_iff hone.ne']
    linarith
  · have hk : (Flt.ofBits .f32 0x4AA7D8C0 : F32).sunits = 5500000 * (FloatFormat.f32.one : ℤ) := by decide +kernel
    have hk' : ((Flt.ofBits .f32 0x4AA7D8C0 : F32).sunits : ℚ) = 5500000 * FloatFormat.f32.one := by exact_mod_cast hk
    have hone : (0 : ℚ) < FloatFormat.f32.one := by exact_mod_cast FloatFormat.f32.one_pos
    rw [value_eq usable_f32, div_eq_iff hone.ne', hk']

/-- Intensities only. -/
def intensityLayout : PointLayout := ⟨[⟨⟨"Intensity", .u16⟩, 0⟩], 2, 2⟩

theorem intensity_solid : Solid intensityLayout := by decide +kernel

/-- Three points with an intensity are written: the file has three points without attributes. -/
example : ∃ (b : Batch) (w w' : PntsWriter) (r : PntsReader), storedAttributes intensityLayout = [] ∧ b.points.length = 3 ∧
    openPnts intensityLayout none = .ok w ∧ runPnts Codec.codec id w ([.write b] ++ [.flush]) = .ok w' ∧
    fromRead Codec.codec w'.writer.data = .ok r ∧ r.layout = PointLayout.default ∧ r.metadata.pointsLength = 3 := by
  have hno : storedAttributes intensityLayout = [] := by decide +kernel
  let b : Batch := copies intensityLayout intensity_solid [7, 1] rfl 3
  have h : (match openPnts intensityLayout none with
    | .error _ => false
    | .ok w => match runPnts Codec.codec id w ([.write (copies intensityLayout intensity_solid [7, 1] rfl 3)] ++ [.flush]) with
      | .ok _ => true
      | .error _ => false) = true := by decide +kernel
  cases hw : openPnts intensityLayout none with
  | error e => rw [hw] at h; cases h
  | ok w =>
    rw [hw] at h
    dsimp only at h
    cases hr : runPnts Codec.codec id w ([.write (copies intensityLayout intensity_solid [7, 1] rfl 3)] ++ [.flush]) with
    | error e => rw [hr] at h; cases h
    | ok w' =>
      have hlen : (beforeFlush [.write b]).length = 3 := by decide
      obtain ⟨r, r1, r2, r3, _⟩ := (C55_no_attributes Codec.codec_faithful (order := id) (fun c => List.Perm.refl _)
        intensity_solid hno hw [.write b] (by intro x hx; obtain rfl := List.mem_singleton.1 hx; rfl) (by rw [hlen]; decide)
        hr).1 (by intro c hc; cases hc)
      exact ⟨b, w, w', r, hno, by decide, rfl, hr, r1, r2, by rw [r3, hlen]⟩

/-- A buffer without points can be written. -/
example : ∃ file, ShowsPoints (copies eastLayout east_solid eastRecord east_length 0).buffer eastLayout [] ∧
    writeAllPnts Codec.codec id (copies eastLayout east_solid eastRecord east_length 0).buffer = .ok file := by
  have h : (match writeAllPnts Codec.codec id (copies eastLayout east_solid eastRecord east_length 0).buffer with
    | .ok _ => true
    | .error _ => false) = true := by decide +kernel
  cases hf : writeAllPnts Codec.codec id (copies eastLayout east_solid eastRecord east_length 0).buffer with
  | ok file => exact ⟨file, (copies eastLayout east_solid eastRecord east_length 0).shows, rfl⟩
  | error e => rw [hf] at h; cases h

end Pasture.Props
