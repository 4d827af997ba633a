import Verif.Spec.Batches
import Verif.Props.LasRefuse
import Verif.Props.Ascii
import Verif.Props.Pnts

/-!
# C107: what is in a file does not depend on how its points were handed to the writer
-/

namespace Pasture.Props

open Spec Las BorrowedBuffer

theorem same_points {bs bs' : List Batch} (h : inLayouts bs = inLayouts bs') :
    bs.flatMap Batch.points = bs'.flatMap Batch.points := by
  have key : ∀ bs : List Batch, bs.flatMap Batch.points = (inLayouts bs).map Prod.snd := by
    intro bs
    unfold inLayouts
    rw [List.map_flatMap]
    congr 1
    funext b
    rw [List.map_map]
    exact (List.map_id _).symm
  rw [key, key, h]

theorem same_counted {bs bs' : List Batch} (h : inLayouts bs = inLayouts bs') (l : PointLayout) :
    bs.flatMap (countedIn l) = bs'.flatMap (countedIn l) := by
  have key : ∀ bs : List Batch, bs.flatMap (countedIn l) = ((inLayouts bs).filter fun a => decide (a.1 = l)).map Prod.snd := by
    intro bs
    induction bs with
    | nil => rfl
    | cons b bs ih =>
      rw [List.flatMap_cons, ih]
      show _ = List.map _ (List.filter _ (b.points.map (fun p => (b.layout, p)) ++ inLayouts bs))
      rw [List.filter_append, List.map_append]
      congr 1
      unfold countedIn
      by_cases e : b.layout = l
      · rw [if_pos e, List.filter_eq_self.2, List.map_map]
        · exact (List.map_id _).symm
        · intro a ha
          obtain ⟨p, _, rfl⟩ := List.mem_map.1 ha
          exact decide_eq_true e
      · rw [if_neg e, List.filter_eq_nil_iff.2]
        · rfl
        · intro a ha
          obtain ⟨p, _, rfl⟩ := List.mem_map.1 ha
          simpa using e
  rw [key, key, h]

/-! ## LAS files -/

/-- **C107 in part**, LAS files: two sequences of calls of `write` and `flush` with the same points in the same layouts leave
    the same writer with the same file, header included, after a last `flush`, or fail in the same way; as long as the legacy
    counts fit or the point format has none (`C40_legacy_violated`). -/
theorem C107_las_partial {n : Nat} {encode : LasHeader → Bytes} {H : Nat} {template : LasHeader} {vlrs evlrs : Bytes}
    {w : RawLasWriter} (o : OpenedLas n encode H template vlrs evlrs w) (calls calls' : List WriterCall)
    (h : inLayouts (writesOf calls) = inLayouts (writesOf calls')) (hl : 5 < n ∨ (written calls).length ≤ 2 ^ 32 - 1) :
    runLas encode w (calls ++ [.flush]) = runLas encode w (calls' ++ [.flush]) := by
  have e1 : written calls = written calls' := by rw [written_writes, written_writes, same_points h]
  have e2 : writtenIn w.defaultLayout calls = writtenIn w.defaultLayout calls' := by
    rw [writtenIn_writes, writtenIn_writes]
    exact same_counted h w.defaultLayout
  obtain ⟨f, hf, hd, _, hfm, htr, _, _, _, _, i⟩ := open_las o
  have hs : w.header.format % 64 = n := by rw [hfm]; exact o.number
  cases hm : (written calls).mapM (storedRecord n template.transforms) with
  | none =>
    rw [runLas_append, runLas_append, run_las_refused o.header_size hf hd hs calls i (htr ▸ hm),
      run_las_refused o.header_size hf hd hs calls' i (by rw [← e1, htr]; exact hm)]
  | some recs =>
    have hst : Stored n template.transforms (written calls) recs := hm
    obtain ⟨u, u', a1, a2, a3, a4, a5, a6⟩ := run_flush o calls hst
    obtain ⟨v, v', b1, b2, b3, b4, b5, b6⟩ := run_flush o calls' (e1 ▸ hst)
    rw [← e1, ← e2] at b5
    have hn : n ≤ 10 := (itemsOf_eq hf).2
    have hnum := o.number
    have hh : u'.header = v'.header := by
      rw [a4, b4]
      by_cases h5 : 5 < n
      · obtain ⟨l1, l2⟩ := a6 (.inl h5)
        obtain ⟨l3, l4⟩ := b6 (.inl h5)
        rw [legacy_finalize (by rw [a5.header.format, hfm]; omega), legacy_finalize (by rw [b5.header.format, hfm]; omega)]
        exact header_eq a5.header b5.header (l1.trans l3.symm) (l2.trans l4.symm)
      · have hc := hl.resolve_left h5
        obtain ⟨l1, l2⟩ := legacy_filled (h := u.header) (by rw [a5.header.count]; exact hc) (by rw [a5.header.format, hfm]; omega)
        obtain ⟨l3, l4⟩ := legacy_filled (h := v.header) (by rw [b5.header.count]; exact hc) (by rw [b5.header.format, hfm]; omega)
        apply header_eq a5.header.finalize b5.header.finalize
        · rw [l1, l3, a5.header.count, b5.header.count]
        · rw [l2, l4, a5.header.byReturn, b5.header.byReturn]
    have ha : u' = u.flush encode := by
      rw [runLas_append, a1] at a2
      exact (Except.ok.inj a2).symm
    have hb : v' = v.flush encode := by
      rw [runLas_append, b1] at b2
      exact (Except.ok.inj b2).symm
    obtain ⟨c1, c2, _⟩ := a5.flush o.header_size
    obtain ⟨d1, d2, _⟩ := b5.flush o.header_size
    rw [← ha] at c1 c2
    rw [← hb] at d1 d2
    have hp : u'.writer.pos = v'.writer.pos := by
      obtain ⟨x, _, x1, _, x2, _⟩ := c1.file.bytes
      obtain ⟨y, _, y1, _, y2, _⟩ := d1.file.bytes
      rw [x2, y2]
      simp only [List.length_append, x1, y1]
    have hdata : u'.writer.data = v'.writer.data := by rw [a3, b3, hh]
    have hlay : u'.defaultLayout = v'.defaultLayout := c1.layout.trans d1.layout.symm
    have hev : u'.evlrs = v'.evlrs := c1.evlrs.trans d1.evlrs.symm
    have hfl : u'.requiresFlush = v'.requiresFlush := c2.trans d2.symm
    rw [a2, b2]
    congr 1
    obtain ⟨⟨_, _⟩, _, _, _, _⟩ := u'
    obtain ⟨⟨_, _⟩, _, _, _, _⟩ := v'
    dsimp only at hp hdata hlay hh hev hfl
    rw [hp, hdata, hlay, hh, hev, hfl]

/-! ## LAZ files -/

/-- **C107 in part**, LAZ files: the writers are the same, if batches in other layouts than the default one consist of whole
    chunks of 50,000 points. -/
theorem C107_laz_partial {n : Nat} {template : LasHeader} {w : RawLazWriter} (o : OpenedLaz n template w) (bs bs' : List Batch)
    (h : inLayouts bs = inLayouts bs') (hfull : ∀ b ∈ bs ++ bs', b.layout = w.defaultLayout ∨ b.points.length % 50000 = 0) :
    runLaz w bs = runLaz w bs' := by
  have e1 := same_points h
  have e2 := same_counted h w.defaultLayout
  obtain ⟨f, hf, hd, _, hfm, htr, hrl, _, _, _, _, _, i⟩ := open_laz o
  have hs : w.header.format % 64 = n := by rw [hfm]; exact o.number
  have hr : w.header.recordLength = lasRecordLength n := by rw [hrl]; exact o.length
  cases hm : (bs.flatMap Batch.points).mapM (storedRecord n template.transforms) with
  | none =>
    rw [run_laz_refused hf hd hs hr bs i (htr ▸ hm), run_laz_refused hf hd hs hr bs' i (by rw [← e1, htr]; exact hm)]
  | some recs =>
    have hst : Stored n w.header.transforms (bs.flatMap Batch.points) recs := htr ▸ hm
    obtain ⟨u, a1, a2, a3, a4, a5⟩ := run_laz hf hd hs hr bs i hst
    obtain ⟨v, b1, b2, b3, b4, b5⟩ := run_laz hf hd hs hr bs' i (e1 ▸ hst)
    rw [← e1, ← e2] at b2
    rw [a1, b1]
    congr 1
    have hh := header_eq a2.header b2.header (a4.trans b4.symm) (a5.trans b5.symm)
    have hx := (a3 fun b hb => hfull b (List.mem_append_left _ hb)).trans (b3 fun b hb => hfull b (List.mem_append_right _ hb)).symm
    have hlay := a2.layout.trans b2.layout.symm
    obtain ⟨_, _, _⟩ := u
    obtain ⟨_, _, _⟩ := v
    dsimp only at hh hx hlay
    rw [hh, hx, hlay]

/-! ## Text files -/

theorem mapM_split {α γ : Type} (f : α → Out γ) (xs ys : List α) :
    (xs ++ ys).mapM f = (xs.mapM f).bind fun as => (ys.mapM f).map fun bs => as ++ bs := by
  induction xs with
  | nil =>
    show ys.mapM f = Except.map _ (ys.mapM f)
    cases ys.mapM f <;> rfl
  | cons x xs ih =>
    rw [List.cons_append, List.mapM_cons, List.mapM_cons, ih]
    show (f x).bind _ = ((f x).bind _).bind _
    cases f x with
    | error e => rfl
    | ok a =>
      show (Except.bind _ _).bind _ = (Except.bind _ _).bind _
      cases xs.mapM f with
      | error e => rfl
      | ok as =>
        show (Except.map _ (ys.mapM f)).bind _ = Except.map _ (ys.mapM f)
        cases ys.mapM f <;> rfl

theorem ascii_lines (bs : List Batch) : ∀ w : Ascii.RawAsciiWriter, runAscii w bs =
    ((bs.flatMap Batch.points).mapM (Ascii.pointLine w)).map fun ls =>
      { w with text := w.text ++ (ls.map (· ++ ['\n'])).flatten } := by
  induction bs with
  | nil =>
    intro w
    show Except.ok w = Except.ok _
    simp
  | cons b bs ih =>
    intro w
    show (w.write b.buffer).bind _ = _
    rw [Ascii.write_eq b.solid b.shows, List.flatMap_cons, mapM_split]
    cases hb : b.points.mapM (Ascii.pointLine w) with
    | error e => rfl
    | ok ls =>
      show runAscii _ bs = Except.map _ (Except.map _ _)
      rw [ih]
      have e : Ascii.pointLine { w with text := w.text ++ (ls.map (· ++ ['\n'])).flatten } = Ascii.pointLine w := rfl
      rw [e]
      cases (bs.flatMap Batch.points).mapM (Ascii.pointLine w) with
      | error e => rfl
      | ok ms =>
        show Except.ok _ = Except.ok _
        simp [List.append_assoc]

/-- **C107**, text files. -/
theorem C107_ascii (w : Ascii.RawAsciiWriter) (bs bs' : List Batch) (h : inLayouts bs = inLayouts bs') :
    runAscii w bs = runAscii w bs' := by
  rw [ascii_lines, ascii_lines, same_points h]

/-! ## PNTS files -/

section Pnts

open Tiles3d Spec.Pnts PntsCalls

theorem pnts_batches (J : JsonText) {order : Converters → Converters} (ho : ∀ c, (order c).Perm c) {l cl : PointLayout}
    {fns : Converters} (hc : Compatible l cl fns) : ∀ (bs : List Batch), (∀ b ∈ bs, b.layout = l) → ∀ (w : PntsWriter)
    (ps : List Point), Caching l cl fns w ps → ∃ cache, runPnts J order w (bs.map .write) = .ok { w with cachedPoints := cache } ∧
      Caching l cl fns { w with cachedPoints := cache } (ps ++ bs.flatMap Batch.points) := by
  intro bs
  induction bs with
  | nil => intro _ w ps hw; exact ⟨w.cachedPoints, rfl, by simpa using hw⟩
  | cons b bs ih =>
    intro hb w ps hw
    have hbl : b.layout = l := hb b List.mem_cons_self
    obtain ⟨cache, g1, g2⟩ := write_caching ho hc hw (hbl ▸ b.shows)
    obtain ⟨cache', k1, k2⟩ := ih (fun x hx => hb x (List.mem_cons_of_mem _ hx)) _ _ g2
    refine ⟨cache', ?_, ?_⟩
    · show (w.write order b.buffer).bind _ = _
      rw [g1]
      exact k1
    · rw [List.append_assoc] at k2
      exact k2

/-- Nothing is kept of layouts without attributes of the format but the number of points. -/
theorem pnts_bare (J : JsonText) {order : Converters → Converters} (ho : ∀ c, (order c).Perm c) {l : PointLayout} (hl : Solid l) :
    ∀ (bs : List Batch), (∀ b ∈ bs, b.layout = l) → ∀ (w : PntsWriter), w.expectedLayout = l → w.attributeConverters = [] →
    w.cachedPoints.layout = PointLayout.default → w.cachedPoints.columns = [] →
    runPnts J order w (bs.map .write) = .ok { w with
      cachedPoints := { w.cachedPoints with length := w.cachedPoints.length + (bs.flatMap Batch.points).length } } := by
  intro bs
  induction bs with
  | nil => intro _ w _ _ _ _; rfl
  | cons b bs ih =>
    intro hb w h1 h2 h3 h4
    have hbl : b.layout = l := hb b List.mem_cons_self
    have hw : w.write order b.buffer = .ok { w with
        cachedPoints := { w.cachedPoints with length := w.cachedPoints.length + b.points.length } } := by
      unfold PntsWriter.write
      rw [if_neg (by rw [batch_layout, hbl, h1]; simp), if_neg (by
        rw [batch_layout, hbl]
        intro he
        have h5' : BorrowedBuffer.layout w.cachedPoints = PointLayout.default := h3
        rw [h5'] at he
        exact hl.nonempty (by rw [he]; rfl)), h2, (ho []).eq_nil, batch_len]
      show Except.ok _ = Except.ok _
      simp only [OwningBuffer.resize, HashMapBuffer.resize, h4, List.map_nil]
      rfl
    show (w.write order b.buffer).bind _ = _
    rw [hw]
    show runPnts J order _ _ = _
    have := ih (fun x hx => hb x (List.mem_cons_of_mem _ hx)) { w with
        cachedPoints := { w.cachedPoints with length := w.cachedPoints.length + b.points.length } } h1 h2 h3 h4
    rw [List.flatMap_cons, List.length_append, ← Nat.add_assoc]
    exact this

/-- **C107 in part**, PNTS files: without a flush in between (`C47_pnts_lost`), and whatever the orders are in which the
    converters are looked up in either case. -/
theorem C107_pnts_partial (J : JsonText) {order order' : Converters → Converters} (ho : ∀ c, (order c).Perm c)
    (ho' : ∀ c, (order' c).Perm c) {l : PointLayout} (hl : Solid l) {center : Option (P3 F64)} {w : PntsWriter}
    (hw : openPnts l center = .ok w) (bs bs' : List Batch) (hb : ∀ b ∈ bs ++ bs', b.layout = l)
    (h : inLayouts bs = inLayouts bs') :
    runPnts J order w (bs.map .write ++ [.flush]) = runPnts J order' w (bs'.map .write ++ [.flush]) := by
  have e := same_points h
  have hb1 : ∀ b ∈ bs, b.layout = l := fun b hx => hb b (List.mem_append_left _ hx)
  have hb2 : ∀ b ∈ bs', b.layout = l := fun b hx => hb b (List.mem_append_right _ hx)
  suffices hsuff : runPnts J order w (bs.map .write) = runPnts J order' w (bs'.map .write) by
    rw [run_append, run_append, hsuff]
    rfl
  obtain ⟨_, ⟨cl, fns, h1, h2⟩ | ⟨_, h2, h3, h4, h5, h6⟩⟩ := (open_waiting hl hw).cached
  · obtain ⟨c1, g1, g2⟩ := pnts_batches J ho h1 bs hb1 w [] h2
    obtain ⟨c2, k1, k2⟩ := pnts_batches J ho' h1 bs' hb2 w [] h2
    rw [← e] at k2
    obtain ⟨r1, _, x2, x3⟩ := g2.cache
    obtain ⟨r2, _, y2, y3⟩ := k2.cache
    have : c1 = c2 := by
      dsimp only at x2 y2
      rw [x2, y2]
      exact HashMapBuffer.ofRecords_congr (x3.trans y3.symm)
    rw [g1, k1, this]
  · have hcol : w.cachedPoints.columns = [] := by
      unfold openPnts at hw
      obtain ⟨w0, hw0, hw⟩ := bind_ok hw
      unfold PntsWriter.fromWriteAndLayout at hw0
      obtain ⟨⟨cache, fns⟩, hm, hw0⟩ := bind_ok hw0
      cases hw0
      have hd : w.defaultLayout = cache ∧ w.cachedPoints = MakeBufferFromLayout.newFromLayout cache := by
        cases center <;> (cases hw; exact ⟨rfl, rfl⟩)
      rw [hd.2, ← hd.1, h3]
      rfl
    rw [pnts_bare J ho hl bs hb1 w h2 h4 h5 hcol, pnts_bare J ho' hl bs' hb2 w h2 h4 h5 hcol, e]

end Pnts

/-! ## The full claim is false -/

/-- Two points, in one batch or in two. -/
theorem small_pair : inLayouts [smallBatch 2] = inLayouts [smallBatch 1, smallBatch 1] := rfl

/-- **C107 violated**: two points in another layout than the default one of a LAZ file: if they come in one batch, 50,000
    records are handed to the compressor, and 100,000 if they come in two. -/
theorem C107_laz_violated : ∃ w u v, OpenedLaz 0 smallHeader w ∧ runLaz w [smallBatch 2] = .ok u ∧
    runLaz w [smallBatch 1, smallBatch 1] = .ok v ∧ u.handed.length = 50000 * lasRecordLength 0 ∧
    v.handed.length = 100000 * lasRecordLength 0 := by
  obtain ⟨w, o⟩ := opens_laz (n := 0) (by omega) smallHeader rfl rfl small_scales
  obtain ⟨f, hf, hd, _, hfm, htr, hrl, _, _, _, _, h0, i⟩ := open_laz o
  have hs : w.header.format % 64 = 0 := by rw [hfm]; exact o.number
  have hr : w.header.recordLength = lasRecordLength 0 := by rw [hrl]; exact o.length
  obtain ⟨recs, h2⟩ := small_stored 2
  obtain ⟨rec, h1⟩ := small_stored 1
  obtain ⟨u, a1, a2, _⟩ := C42_custom o (smallBatch 2) h2 (small_not_default hd)
  obtain ⟨v1, b1, b2, _, b3, _⟩ := i.write hf hd hs hr (smallBatch 1) (htr ▸ h1)
  obtain ⟨v, c1, _, _, c3, _⟩ := b2.write hf hd hs hr (smallBatch 1) (htr ▸ h1)
  have hk : ∀ k, (smallBatch k).points.length = k := fun k => by rw [small_points, List.length_replicate]
  have hh : handedRecords (smallBatch 1) = 50000 := by unfold handedRecords; rw [hk]; rfl
  refine ⟨w, u, v, o, a1, ?_, ?_, ?_⟩
  · show (w.write (smallBatch 1).buffer).bind _ = _
    rw [b1]
    show (v1.write (smallBatch 1).buffer).bind _ = _
    rw [c1]
    rfl
  · rw [a2, hk]
  · rw [c3 (small_not_default hd), b3 (small_not_default hd), h0, hh]
    simp only [List.length_nil]
    omega

/-! ### A concrete case

Three points: one batch, or a columnar buffer with two of them, a flush, and an interleaved buffer with the third. -/

/-- Copies of the point in columns. -/
def smallColumns (k : Nat) : Batch where
  β := HashMapBuffer
  buffer := HashMapBuffer.ofRecords smallLayout (List.replicate k smallRecord)
  layout := smallLayout
  points := (List.replicate k smallRecord).map (pointOf smallLayout)
  shows := HoldsRecords.shows small_solid (fun x hx => by rw [List.eq_of_mem_replicate hx]; rfl)
  solid := small_solid

example : (∃ w, OpenedLas 0 smallEncode 12 smallHeader [1, 2] [3] w) ∧
    inLayouts (writesOf [.write (smallBatch 3)]) = inLayouts (writesOf [.write (smallColumns 2), .flush, .write (smallBatch 1)]) ∧
    (inLayouts (writesOf [.write (smallBatch 3)])).length = 3 ∧ (written [.write (smallBatch 3)]).length ≤ 2 ^ 32 - 1 ∧
    ∃ recs, Stored 0 smallHeader.transforms (written [.write (smallBatch 3)]) recs := by
  refine ⟨opens_las (n := 0) (by omega) _ small_encode _ rfl small_scales _ _, rfl, rfl, ?_, ?_⟩
  · decide
  · obtain ⟨recs, h⟩ := small_stored 3
    exact ⟨recs, by simpa [written, WriterCall.points] using h⟩

example : (∃ w, Tiles3d.PntsWriter.fromWriteAndLayout ⟨[], 0⟩ smallLayout = .ok w) ∧
    ∀ b ∈ [smallBatch 3] ++ [smallColumns 2, smallBatch 1], b.layout = smallLayout := by
  constructor
  · have : (Tiles3d.PntsWriter.fromWriteAndLayout ⟨[], 0⟩ smallLayout).isOk = true := by decide +kernel
    cases h : Tiles3d.PntsWriter.fromWriteAndLayout ⟨[], 0⟩ smallLayout with
    | ok w => exact ⟨w, rfl⟩
    | error e => rw [h] at this; cases this
  · intro b hb
    simp only [List.mem_append, List.mem_cons, List.not_mem_nil, or_false] at hb
    rcases hb with rfl | rfl | rfl <;> rfl

end Pasture.Props
