import Verif.Spec.WriteConverted
import Verif.Props.TwoSteps
import Verif.Props.LasRefuse
import Verif.Props.LasFiles
import Verif.Props.Batches

/-!
# C112: writing points in another layout, or converting them to the layout of the file first
-/

namespace Pasture.Props

open Spec Las BorrowedBuffer

/-- Names of attributes that records of a format are made of. -/
theorem items_from (f : Format) : ∀ item ∈ itemsOf f,
    (item.1 = "LASLocalPosition" ∧ "Position3D" ∈ (writtenAttributes f).map AttrDef.name) ∨
    (item.1 = "LASBasicFlags" ∧ ∀ fd ∈ packedBasic, fd.1 ∈ (writtenAttributes f).map AttrDef.name) ∨
    (item.1 = "LASExtendedFlags" ∧ ∀ fd ∈ packedExtended, fd.1 ∈ (writtenAttributes f).map AttrDef.name) ∨
    (item.1 ∉ ["LASLocalPosition", "LASBasicFlags", "LASExtendedFlags"] ∧ item.1 ∈ (writtenAttributes f).map AttrDef.name) := by
  obtain ⟨g, c, e, w, r, x, z⟩ := f
  have key : ∀ g c e w r : Bool, let f : Format := ⟨g, c, e, w, r, 0, false⟩
    ∀ item ∈ itemsOf f,
    (item.1 = "LASLocalPosition" ∧ "Position3D" ∈ (writtenAttributes f).map AttrDef.name) ∨
    (item.1 = "LASBasicFlags" ∧ ∀ fd ∈ packedBasic, fd.1 ∈ (writtenAttributes f).map AttrDef.name) ∨
    (item.1 = "LASExtendedFlags" ∧ ∀ fd ∈ packedExtended, fd.1 ∈ (writtenAttributes f).map AttrDef.name) ∨
    (item.1 ∉ ["LASLocalPosition", "LASBasicFlags", "LASExtendedFlags"] ∧ item.1 ∈ (writtenAttributes f).map AttrDef.name) := by
      decide +kernel
  exact key g c e w r

/-- A record depends on the values of the attributes of the format only. -/
theorem storedRecord_congr {n : Nat} {f : Format} (hf : Format.new n = .ok f) (t : Transforms) {p q : Point}
    (h : ∀ d ∈ writtenAttributes f, lasValue q d.name = lasValue p d.name) : storedRecord n t q = storedRecord n t p := by
  have h' : ∀ name ∈ (writtenAttributes f).map AttrDef.name, lasValue q name = lasValue p name := by
    intro name hname
    obtain ⟨d, hd, rfl⟩ := List.mem_map.1 hname
    exact h d hd
  have bits : ∀ size (fields : List (String × Nat × Nat)),
      (∀ fd ∈ fields, fd.1 ∈ (writtenAttributes f).map AttrDef.name) → packBits size fields q = packBits size fields p := by
    intro size fields hb
    unfold packBits
    congr 1
    induction fields with
    | nil => rfl
    | cons fd fields ih =>
      rw [List.mapM_cons, List.mapM_cons, ih fun x hx => hb x (List.mem_cons_of_mem _ hx)]
      show (Option.map _ (lasValue q fd.1)).bind _ = (Option.map _ (lasValue p fd.1)).bind _
      rw [h' _ (hb fd (List.mem_cons_self ..))]
  have item : ∀ it ∈ itemsOf f, storedItem t q it.1 = storedItem t p it.1 := by
    intro it hit
    rcases items_from f it hit with ⟨e, h2⟩ | ⟨e, h2⟩ | ⟨e, h2⟩ | ⟨e, h2⟩
    · rw [e]
      show (lasPosition q).bind _ = (lasPosition p).bind _
      unfold lasPosition
      rw [h' _ h2]
    · rw [e]; exact bits 1 _ h2
    · rw [e]; exact bits 2 _ h2
    · simp only [List.mem_cons, List.not_mem_nil, or_false, not_or] at e
      unfold storedItem
      rw [if_neg e.1, if_neg e.2.1, if_neg e.2.2, if_neg e.1, if_neg e.2.1, if_neg e.2.2, h' _ h2]
  unfold storedRecord
  rw [(itemsOf_eq hf).1]
  congr 1
  revert item
  generalize itemsOf f = its
  intro item
  induction its with
  | nil => rfl
  | cons it its ih =>
    rw [List.mapM_cons, List.mapM_cons, ih fun x hx => item x (List.mem_cons_of_mem _ hx),
      item it (List.mem_cons_self ..)]

/-- Conversion to the default layout keeps the values that are written. -/
theorem converted_value {f : Format} {l target : PointLayout} (hl : Solid l) (ht : Solid target)
    (hd : DefaultFor f target)
    (hc : ∀ t ∈ target.attributes, named l t.name → (defaultPlan l t.definition).isSome) (r : Bytes) :
    ∀ d ∈ writtenAttributes f,
      lasValue ((defaultPlan l).apply (pointOf l r) (zeroPoint target)) d.name = lasValue (pointOf l r) d.name := by
  intro d hdm
  obtain ⟨hty, _⟩ := written_covered f d hdm
  rw [← hd.1] at hdm
  obtain ⟨t, htm, rfl⟩ := List.mem_map.1 hdm
  have hfind : ((defaultPlan l).apply (pointOf l r) (zeroPoint target)).find? (fun a => a.1.name = t.definition.name) =
      (target.attributes.find? fun m => m.name = t.name).map fun m => (m.definition,
        match defaultPlan l m.definition with
        | some x => match (pointOf l r).get x.source with
          | some v => x.value v
          | none => List.replicate m.size 0
        | none => List.replicate m.size 0) := by
    rw [show (defaultPlan l).apply (pointOf l r) (zeroPoint target) = target.attributes.map fun m => (m.definition,
        match defaultPlan l m.definition with
        | some x => match (pointOf l r).get x.source with
          | some v => x.value v
          | none => List.replicate m.size 0
        | none => List.replicate m.size 0) from by
      unfold Plan.apply zeroPoint
      rw [List.map_map]
      rfl]
    rw [List.find?_map]
    rfl
  rw [find_member ht htm rfl] at hfind
  have hleft : ∀ v, (match defaultPlan l t.definition with
        | some x => match (pointOf l r).get x.source with
          | some v => x.value v
          | none => List.replicate t.size 0
        | none => List.replicate t.size 0) = v →
      lasValue ((defaultPlan l).apply (pointOf l r) (zeroPoint target)) t.definition.name = some v := by
    intro v hv
    unfold lasValue
    rw [hty, hfind, Option.map_some, hv]
    show Option.map _ (conversion t.datatype t.datatype) = _
    rw [conversion_to_same]
    rfl
  by_cases hn : named l t.name
  · obtain ⟨m, hm, hname⟩ := hn
    have hs := hc t htm ⟨m, hm, hname⟩
    have hp := defaultPlan_of_name hl hm hname.symm
    rw [hp, Option.isSome_map] at hs
    obtain ⟨g, hg⟩ := Option.isSome_iff_exists.1 hs
    have hget : Point.get (pointOf l r) m.definition = some (window r m.offset m.size) :=
      Las.lookup_map_def (g := fun m => window r m.offset m.size) hm hl.names
    rw [hg] at hp
    rw [lasValue_some hty (find_member hl hm hname)]
    show _ = Option.map _ (conversion m.datatype t.datatype)
    rw [hg]
    apply hleft
    rw [hp]
    simp only [Option.map_some, hget]
  · have h0 : l.getAttributeByName t.definition.name = none := by
      unfold PointLayout.getAttributeByName
      rw [List.find?_eq_none]
      intro m hm he
      exact hn ⟨m, hm, of_decide_eq_true he⟩
    rw [lasValue_none hty h0]
    apply hleft
    rw [defaultPlan_unnamed hn]
    rfl

theorem mapM_congr_map {α γ : Type} {g : α → α} {F : α → Option γ} : ∀ {xs : List α}, (∀ x ∈ xs, F (g x) = F x) →
    (xs.map g).mapM F = xs.mapM F
  | [], _ => rfl
  | x :: xs, h => by
    rw [List.map_cons, List.mapM_cons, List.mapM_cons, h x (List.mem_cons_self ..),
      mapM_congr_map fun y hy => h y (List.mem_cons_of_mem _ hy)]

theorem mapM_both {α γ : Type} (F : α → Option γ) (xs ys : List α) :
    (xs ++ ys).mapM F = (xs.mapM F).bind fun as => (ys.mapM F).map fun bs => as ++ bs := by
  induction xs with
  | nil => simp
  | cons x xs ih =>
    rw [List.cons_append, List.mapM_cons, List.mapM_cons, ih]
    cases F x with
    | none => rfl
    | some a =>
      cases xs.mapM F with
      | none => rfl
      | some as =>
        cases ys.mapM F <;> rfl

theorem bounded_congr {g : Point → Point} : ∀ (ps : List Point) (h : LasHeader), (∀ p ∈ ps, lasPosition (g p) = lasPosition p) →
    boundedBy h (ps.map g) = boundedBy h ps
  | [], _, _ => rfl
  | p :: ps, h, hp => by
    have e : posOf (g p) = posOf p := by unfold posOf; rw [hp p (List.mem_cons_self ..)]
    show boundedBy (h.updateBounds (posOf (g p))) (ps.map g) = boundedBy (h.updateBounds (posOf p)) ps
    rw [e]
    exact bounded_congr ps _ fun q hq => hp q (List.mem_cons_of_mem _ hq)

theorem bounded_append (h : LasHeader) (ps qs : List Point) : boundedBy h (ps ++ qs) = boundedBy (boundedBy h ps) qs :=
  List.foldl_append

theorem writeAmong_eq (encode : LasHeader → Bytes) (w : RawLasWriter) (before : List WriterCall) (b : Batch)
    (after : List WriterCall) :
    writeAmong encode w before b.buffer after = runLas encode w ((before ++ .write b :: after) ++ [.flush]) := by
  rw [List.append_assoc, runLas_append]
  rfl

section
variable {n : Nat} {encode : LasHeader → Bytes} {H : Nat} {template : LasHeader} {vlrs evlrs : Bytes} {w : RawLasWriter}

/-- Batches with the same values for the file. -/
theorem same_file (o : OpenedLas n encode H template vlrs evlrs w) (before after : List WriterCall) (b b' : Batch)
    {g : Point → Point} (hb : b'.points = b.points.map g)
    (hg : ∀ f, Format.new n = .ok f → ∀ p ∈ b.points, ∀ d ∈ writtenAttributes f, lasValue (g p) d.name = lasValue p d.name)
    (hl : 5 < n ∨ (written (before ++ .write b :: after)).length ≤ 2 ^ 32 - 1) :
    SameFileButReturns encode (writeAmong encode w before b.buffer after) (writeAmong encode w before b'.buffer after) := by
  rw [writeAmong_eq, writeAmong_eq]
  obtain ⟨f, hf, hd, _, hfm, htr, _, _, _, _, i⟩ := open_las o
  have hs : w.header.format % 64 = n := by rw [hfm]; exact o.number
  have hw : ∀ b : Batch, written (before ++ .write b :: after) = written before ++ (b.points ++ written after) := by
    intro b
    simp [written, WriterCall.points]
  have hrec : ∀ p ∈ b.points, storedRecord n template.transforms (g p) = storedRecord n template.transforms p :=
    fun p hp => storedRecord_congr hf _ (hg f hf p hp)
  have e : (written (before ++ .write b' :: after)).mapM (storedRecord n template.transforms) =
      (written (before ++ .write b :: after)).mapM (storedRecord n template.transforms) := by
    rw [hw, hw, mapM_both, mapM_both, mapM_both, mapM_both, hb, mapM_congr_map hrec]
  have elen : (written (before ++ .write b' :: after)).length = (written (before ++ .write b :: after)).length := by
    rw [hw, hw, hb]
    simp
  have ebox : boundedBy w.header (written (before ++ .write b' :: after)) =
      boundedBy w.header (written (before ++ .write b :: after)) := by
    rw [hw, hw, bounded_append, bounded_append, bounded_append, bounded_append, hb, bounded_congr]
    intro p hp
    have := hg f hf p hp Las.position3D (by simp [writtenAttributes])
    unfold lasPosition
    rw [show lasValue (g p) "Position3D" = lasValue p "Position3D" from this]
  cases hm : (written (before ++ .write b :: after)).mapM (storedRecord n template.transforms) with
  | none =>
    left
    rw [runLas_append encode (before ++ .write b :: after), runLas_append encode (before ++ .write b' :: after),
      run_las_refused o.header_size hf hd hs _ i (htr ▸ hm), run_las_refused o.header_size hf hd hs _ i (by rw [htr, e]; exact hm)]
    exact ⟨rfl, rfl⟩
  | some recs =>
    right
    obtain ⟨u, u', a1, a2, a3, a4, a5, a6⟩ := run_flush o _ (show Stored n template.transforms _ recs from hm)
    obtain ⟨v, v', b1, b2, b3, b4, b5, b6⟩ := run_flush o _ (show Stored n template.transforms _ recs from e.trans hm)
    have hn : n ≤ 10 := (itemsOf_eq hf).2
    have hnum := o.number
    refine ⟨u', v', vlrs ++ recs.flatten ++ evlrs, a2, b2, by rw [a3]; simp, by rw [b3]; simp, ?_⟩
    have hc : u'.header.legacyCount = v'.header.legacyCount := by
      rw [a4, b4]
      by_cases h5 : 5 < n
      · rw [legacy_finalize (by rw [a5.header.format, hfm]; omega), legacy_finalize (by rw [b5.header.format, hfm]; omega),
          (a6 (.inl h5)).1, (b6 (.inl h5)).1]
      · have hc := hl.resolve_left h5
        rw [(legacy_filled (h := u.header) (by rw [a5.header.count]; exact hc) (by rw [a5.header.format, hfm]; omega)).1,
          (legacy_filled (h := v.header) (by rw [b5.header.count, elen]; exact hc) (by rw [b5.header.format, hfm]; omega)).1,
          a5.header.count, b5.header.count, elen]
    have ia := a5.header.finalize
    have ib := b5.header.finalize
    rw [← a4] at ia
    rw [← b4] at ib
    unfold SameButReturns
    generalize u'.header = x at ia hc ⊢
    generalize v'.header = y at ib hc ⊢
    cases x; cases y
    simp only [LasHeader.mk.injEq, true_and]
    exact ⟨ib.min.trans (by rw [ebox]; exact ia.min.symm), ib.max.trans (by rw [ebox]; exact ia.max.symm),
      ib.transforms.trans ia.transforms.symm, ib.format.trans ia.format.symm, ib.recordLength.trans ia.recordLength.symm,
      hc.symm, ib.count.trans (elen.trans ia.count.symm), ib.evlrStart.trans ia.evlrStart.symm⟩

variable {σ : Type} [BorrowedBuffer σ] [AsMemory σ]

theorem default_solid (o : OpenedLas n encode H template vlrs evlrs w) : Solid w.defaultLayout := by
  obtain ⟨f, hf, _, hlay, _⟩ := open_las o
  obtain ⟨f', l, _, m1, m2, _, _, _, _, hsol, _⟩ := format_layouts n (itemsOf_eq hf).2 false template.transforms
  rw [hf] at m1
  cases m1
  rw [hlay] at m2
  cases m2
  exact hsol

/-- **C112 in part**: at whatever point among other calls a buffer is written to a LAS file, if its layout can be converted
    to the default layout of the file, then writing it and writing the converted buffer give the same file, except for
    the numbers of points by return in the header, or both panic. Missing: these numbers (`C112_violated`), and legacy
    counts that do not fit (`C40_legacy_violated`). -/
theorem C112_las_partial (o : OpenedLas n encode H template vlrs evlrs w) (before after : List WriterCall) (source : σ)
    (l : PointLayout) (hl : Solid l) (ps : List Point) (h : SourceShows source l ps)
    (hc : ∃ c, BufferLayoutConverter.forLayoutsWithDefault l w.defaultLayout = .ok c)
    (hlegacy : 5 < n ∨ (written before).length + ps.length + (written after).length ≤ 2 ^ 32 - 1) :
    (∃ c, atOnce VectorBuffer l w.defaultLayout source = .ok c ∧
      SameFileButReturns encode (writeAmong encode w before source after) (writeAmong encode w before c after)) ∧
    ∃ c, atOnce HashMapBuffer l w.defaultLayout source = .ok c ∧
      SameFileButReturns encode (writeAmong encode w before source after) (writeAmong encode w before c after) := by
  have ht := default_solid o
  have hp := (C28_with_default l w.defaultLayout ht).1.1 hc
  obtain ⟨f, hf, hd, _⟩ := open_las o
  obtain ⟨⟨a, ha, sa⟩, ⟨b, hb, sb⟩⟩ := at_once source l w.defaultLayout hl ht ps h hp
  have key : ∀ b' : Batch, b'.points = (ps.map fun p => (defaultPlan l).apply p (zeroPoint w.defaultLayout)) →
      SameFileButReturns encode (writeAmong encode w before source after) (writeAmong encode w before b'.buffer after) := by
    intro b' hb'
    refine same_file o before after ⟨σ, source, l, ps, h.points, hl⟩ b' hb' ?_ ?_
    · intro f' hf' p hp'
      rw [hf] at hf'
      cases hf'
      obtain ⟨i, hi⟩ := List.mem_iff_getElem?.1 hp'
      obtain ⟨r, _, h2, rfl⟩ := h.points.getPoint_ok i p (zeros l.size) hi (by simp [zeros])
      exact converted_value hl ht hd hp r
    · refine hlegacy.imp_right fun hle => ?_
      simp only [written, List.flatMap_append, List.flatMap_cons, WriterCall.points, List.length_append] at hle ⊢
      omega
  exact ⟨⟨a, ha, key ⟨VectorBuffer, a, _, _, sa.points, ht⟩ rfl⟩, ⟨b, hb, key ⟨HashMapBuffer, b, _, _, sb.points, ht⟩ rfl⟩⟩

/-- Points of a layout that cannot be converted have no records. -/
theorem not_stored {n : Nat} {f : Format} (hf : Format.new n = .ok f) {l target : PointLayout} (hd : DefaultFor f target)
    (hl : Solid l) {σ : Type} [BorrowedBuffer σ] [AsMemory σ] {source : σ} {ps qs : List Point}
    (h : SourceShows source l ps) (h0 : ps ≠ [])
    (hno : ¬ ∀ t ∈ target.attributes, named l t.name → (defaultPlan l t.definition).isSome) (tr : Transforms)
    (hq : ∀ p ∈ ps, p ∈ qs) : qs.mapM (storedRecord n tr) = none := by
  cases hm : qs.mapM (storedRecord n tr) with
  | none => rfl
  | some recs =>
    exfalso
    obtain ⟨p, hp⟩ := List.exists_mem_of_ne_nil ps h0
    obtain ⟨rec, hrec⟩ := mapM_some_mem hm p (hq p hp)
    obtain ⟨k, hk⟩ := List.mem_iff_getElem?.1 hp
    obtain ⟨r, _, _, rfl⟩ := h.points.getPoint_ok k p (zeros l.size) hk (by simp [zeros])
    apply hno
    rintro t htm ⟨m, hm', hname⟩
    have hdm : t.definition ∈ writtenAttributes f := by rw [← hd.1]; exact List.mem_map_of_mem htm
    obtain ⟨hty, _⟩ := written_covered f _ hdm
    obtain ⟨v, hv⟩ := storedRecord_values hf hrec hdm
    rw [lasValue_some hty (find_member hl hm' hname)] at hv
    obtain ⟨g, hg, _⟩ := Option.map_eq_some_iff.1 hv
    rw [defaultPlan_of_name hl hm' hname.symm,
      show conversion m.datatype t.datatype = some g from hg]
    rfl

/-- If the layout cannot be converted, points in it cannot be written either. -/
theorem C112_refused (o : OpenedLas n encode H template vlrs evlrs w) (before after : List WriterCall) (source : σ)
    (l : PointLayout) (hl : Solid l) (ps : List Point) (h : SourceShows source l ps) (h0 : ps ≠ [])
    (hc : ¬ ∃ c, BufferLayoutConverter.forLayoutsWithDefault l w.defaultLayout = .ok c) :
    atOnce VectorBuffer l w.defaultLayout source = .error .panic ∧
      writeAmong encode w before source after = .error .panic := by
  have ht := default_solid o
  have hno : ¬ ∀ t ∈ w.defaultLayout.attributes, named l t.name → (defaultPlan l t.definition).isSome :=
    fun hp => hc ((C28_with_default l w.defaultLayout ht).1.2 hp)
  refine ⟨by unfold atOnce; rw [(C28_with_default l w.defaultLayout ht).2 hno]; rfl, ?_⟩
  obtain ⟨f, hf, hd, _, hfm, htr, _, _, _, _, i⟩ := open_las o
  have hs : w.header.format % 64 = n := by rw [hfm]; exact o.number
  rw [show writeAmong encode w before source after = _ from
    writeAmong_eq encode w before ⟨σ, source, l, ps, h.points, hl⟩ after, runLas_append encode (before ++ _ :: after)]
  have hnone := not_stored hf hd hl h h0 hno w.header.transforms
    (qs := written (before ++ .write ⟨σ, source, l, ps, h.points, hl⟩ :: after))
    fun p hp => by simp [written, WriterCall.points, hp]
  rw [run_las_refused o.header_size hf hd hs _ i hnone]
  rfl

end

theorem runLaz_both (bs cs : List Batch) : ∀ w, runLaz w (bs ++ cs) = (runLaz w bs).bind fun w => runLaz w cs := by
  induction bs with
  | nil => intro w; rfl
  | cons b bs ih =>
    intro w
    show (w.write b.buffer).bind _ = ((w.write b.buffer).bind _).bind _
    cases w.write b.buffer with
    | error e => rfl
    | ok w => exact ih w

theorem writeAmongLaz_eq (w : RawLazWriter) (before : List Batch) (b : Batch) (after : List Batch) :
    writeAmongLaz w before b.buffer after = runLaz w (before ++ b :: after) := by
  rw [runLaz_both]
  rfl

/-- Batches with the same values for a compressed file. -/
theorem same_laz {n : Nat} {template : LasHeader} {w : RawLazWriter} (o : OpenedLaz n template w) (before after : List Batch)
    (b b' : Batch) {g : Point → Point} (hb : b'.points = b.points.map g)
    (hg : ∀ f, Format.new n = .ok f → ∀ p ∈ b.points, ∀ d ∈ writtenAttributes f, lasValue (g p) d.name = lasValue p d.name)
    (hfull : ∀ x ∈ before ++ b :: after, x.layout = w.defaultLayout ∨ x.points.length % 50000 = 0) (hb' : b'.layout = w.defaultLayout) :
    SameLazButReturns (writeAmongLaz w before b.buffer after) (writeAmongLaz w before b'.buffer after) := by
  rw [writeAmongLaz_eq, writeAmongLaz_eq]
  obtain ⟨f, hf, hd, _, hfm, htr, hrl, _, _, _, _, _, i⟩ := open_laz o
  have hs : w.header.format % 64 = n := by rw [hfm]; exact o.number
  have hr : w.header.recordLength = lasRecordLength n := by rw [hrl]; exact o.length
  have hw : ∀ b : Batch, (before ++ b :: after).flatMap Batch.points =
      before.flatMap Batch.points ++ (b.points ++ after.flatMap Batch.points) := by
    intro b
    simp
  have e : ((before ++ b' :: after).flatMap Batch.points).mapM (storedRecord n w.header.transforms) =
      ((before ++ b :: after).flatMap Batch.points).mapM (storedRecord n w.header.transforms) := by
    rw [hw, hw, mapM_both, mapM_both, mapM_both, mapM_both, hb,
      mapM_congr_map fun p hp => storedRecord_congr hf _ (hg f hf p hp)]
  have elen : ((before ++ b' :: after).flatMap Batch.points).length = ((before ++ b :: after).flatMap Batch.points).length := by
    rw [hw, hw, hb]
    simp
  have ebox : boundedBy w.header ((before ++ b' :: after).flatMap Batch.points) =
      boundedBy w.header ((before ++ b :: after).flatMap Batch.points) := by
    rw [hw, hw, bounded_append, bounded_append, bounded_append, bounded_append, hb, bounded_congr]
    intro p hp
    have := hg f hf p hp Las.position3D (by simp [writtenAttributes])
    unfold lasPosition
    rw [show lasValue (g p) "Position3D" = lasValue p "Position3D" from this]
  cases hm : ((before ++ b :: after).flatMap Batch.points).mapM (storedRecord n w.header.transforms) with
  | none =>
    left
    rw [run_laz_refused hf hd hs hr _ i hm, run_laz_refused hf hd hs hr _ i (e.trans hm)]
    exact ⟨rfl, rfl⟩
  | some recs =>
    right
    obtain ⟨u, a1, a2, a3, a4, a5⟩ := run_laz hf hd hs hr _ i (show Stored n w.header.transforms _ recs from hm)
    obtain ⟨v, b1, b2, b3, b4, b5⟩ := run_laz hf hd hs hr _ i (show Stored n w.header.transforms _ recs from e.trans hm)
    refine ⟨u, v, a1, b1, ?_, ?_⟩
    · rw [a3 hfull, b3]
      intro x hx
      rcases List.mem_append.1 hx with h | h
      · exact hfull x (List.mem_append_left _ h)
      · rcases List.mem_cons.1 h with rfl | h
        · exact .inl hb'
        · exact hfull x (List.mem_append_right _ (List.mem_cons_of_mem _ h))
    · have ia := a2.header
      have ib := b2.header
      rw [List.nil_append] at ia ib
      have hc := b4.trans a4.symm
      unfold SameButReturns
      generalize u.header = x at ia hc ⊢
      generalize v.header = y at ib hc ⊢
      cases x; cases y
      simp only [LasHeader.mk.injEq, true_and]
      exact ⟨ib.min.trans (by rw [ebox]; exact ia.min.symm), ib.max.trans (by rw [ebox]; exact ia.max.symm),
        ib.transforms.trans ia.transforms.symm, ib.format.trans ia.format.symm, ib.recordLength.trans ia.recordLength.symm,
        hc, ib.count.trans (elen.trans ia.count.symm), ib.evlrStart.trans ia.evlrStart.symm⟩

/-- **C112 in part**, LAZ files: if batches in other layouts than the default one consist of whole chunks of 50,000 points
    (`C42_violated`), the compressor gets the same bytes. -/
theorem C112_laz_partial {n : Nat} {template : LasHeader} {w : RawLazWriter} (o : OpenedLaz n template w)
    {σ : Type} [BorrowedBuffer σ] [AsMemory σ] (before after : List Batch) (source : σ)
    (l : PointLayout) (hl : Solid l) (ps : List Point) (h : SourceShows source l ps)
    (hc : ∃ c, BufferLayoutConverter.forLayoutsWithDefault l w.defaultLayout = .ok c) (hps : ps.length % 50000 = 0)
    (hfull : ∀ b ∈ before ++ after, b.layout = w.defaultLayout ∨ b.points.length % 50000 = 0) :
    (∃ c, atOnce VectorBuffer l w.defaultLayout source = .ok c ∧
      SameLazButReturns (writeAmongLaz w before source after) (writeAmongLaz w before c after)) ∧
    ∃ c, atOnce HashMapBuffer l w.defaultLayout source = .ok c ∧
      SameLazButReturns (writeAmongLaz w before source after) (writeAmongLaz w before c after) := by
  obtain ⟨f, hf, hd, hlay, _⟩ := open_laz o
  have ht : Solid w.defaultLayout := by
    obtain ⟨f', l, _, m1, m2, _, _, _, _, hsol, _⟩ := format_layouts n (itemsOf_eq hf).2 false template.transforms
    rw [hf] at m1
    cases m1
    rw [hlay] at m2
    cases m2
    exact hsol
  have hp := (C28_with_default l w.defaultLayout ht).1.1 hc
  obtain ⟨⟨a, ha, sa⟩, ⟨b, hb, sb⟩⟩ := at_once source l w.defaultLayout hl ht ps h hp
  have key : ∀ b' : Batch, b'.points = (ps.map fun p => (defaultPlan l).apply p (zeroPoint w.defaultLayout)) →
      b'.layout = w.defaultLayout →
      SameLazButReturns (writeAmongLaz w before source after) (writeAmongLaz w before b'.buffer after) := by
    intro b' hb' hlb
    refine same_laz o before after ⟨σ, source, l, ps, h.points, hl⟩ b' hb' ?_ ?_ hlb
    · intro f' hf' p hp'
      rw [hf] at hf'
      cases hf'
      obtain ⟨i, hi⟩ := List.mem_iff_getElem?.1 hp'
      obtain ⟨r, _, h2, rfl⟩ := h.points.getPoint_ok i p (zeros l.size) hi (by simp [zeros])
      exact converted_value hl ht hd hp r
    · intro x hx
      rcases List.mem_append.1 hx with h1 | h1
      · exact hfull x (List.mem_append_left _ h1)
      · rcases List.mem_cons.1 h1 with rfl | h1
        · exact .inr hps
        · exact hfull x (List.mem_append_right _ h1)
  exact ⟨⟨a, ha, key ⟨VectorBuffer, a, _, _, sa.points, ht⟩ rfl rfl⟩,
    ⟨b, hb, key ⟨HashMapBuffer, b, _, _, sb.points, ht⟩ rfl rfl⟩⟩

/-- If the layout cannot be converted, points in it cannot be written to a LAZ file either. -/
theorem C112_laz_refused {n : Nat} {template : LasHeader} {w : RawLazWriter} (o : OpenedLaz n template w)
    {σ : Type} [BorrowedBuffer σ] [AsMemory σ] (before after : List Batch) (source : σ)
    (l : PointLayout) (hl : Solid l) (ps : List Point) (h : SourceShows source l ps) (h0 : ps ≠ [])
    (hc : ¬ ∃ c, BufferLayoutConverter.forLayoutsWithDefault l w.defaultLayout = .ok c) :
    atOnce VectorBuffer l w.defaultLayout source = .error .panic ∧
      writeAmongLaz w before source after = .error .panic := by
  obtain ⟨f, hf, hd, hlay, hfm, htr, hrl, _, _, _, _, _, i⟩ := open_laz o
  have ht : Solid w.defaultLayout := by
    obtain ⟨f', l, _, m1, m2, _, _, _, _, hsol, _⟩ := format_layouts n (itemsOf_eq hf).2 false template.transforms
    rw [hf] at m1
    cases m1
    rw [hlay] at m2
    cases m2
    exact hsol
  have hno : ¬ ∀ t ∈ w.defaultLayout.attributes, named l t.name → (defaultPlan l t.definition).isSome :=
    fun hp => hc ((C28_with_default l w.defaultLayout ht).1.2 hp)
  refine ⟨by unfold atOnce; rw [(C28_with_default l w.defaultLayout ht).2 hno]; rfl, ?_⟩
  have hs : w.header.format % 64 = n := by rw [hfm]; exact o.number
  have hr : w.header.recordLength = lasRecordLength n := by rw [hrl]; exact o.length
  rw [show writeAmongLaz w before source after = _ from
    writeAmongLaz_eq w before ⟨σ, source, l, ps, h.points, hl⟩ after]
  exact run_laz_refused hf hd hs hr _ i (not_stored hf hd hl h h0 hno _ fun p hp => by simp [hp])

/-! ## The full claim is false -/

theorem returns_congr {g : Point → Point} (k : Nat) : ∀ ps : List Point,
    (∀ p ∈ ps, lasValue (g p) "ReturnNumber" = lasValue p "ReturnNumber") →
    (withReturn k (ps.map g)).length = (withReturn k ps).length
  | [], _ => rfl
  | p :: ps, h => by
    have ih := returns_congr (g := g) k ps fun q hq => h q (List.mem_cons_of_mem _ hq)
    unfold withReturn at ih ⊢
    rw [List.map_cons, List.filter_cons, List.filter_cons, h p (List.mem_cons_self ..)]
    split
    · rw [List.length_cons, List.length_cons, ih]
    · exact ih

theorem small_shows (k : Nat) : SourceShows (Interleaved.ofRecords smallLayout (List.replicate k smallRecord) : VectorBuffer)
    smallLayout (smallBatch k).points := by
  have := interleaved_shows_records small_solid (rs := List.replicate k smallRecord)
    (by intro x hx; rw [List.eq_of_mem_replicate hx]; rfl)
  exact ⟨this.points, _, this, rfl⟩

/-- **C112 violated**: the numbers of points by return differ. Three points with return number 1 are written to a file of
    format 0; they are counted only if they are converted first. -/
theorem C112_violated : ∃ (w : RawLasWriter) (c : VectorBuffer) (u v : RawLasWriter),
    OpenedLas 0 smallEncode 12 smallHeader [] [] w ∧
    atOnce VectorBuffer smallLayout w.defaultLayout (Interleaved.ofRecords smallLayout (List.replicate 3 smallRecord)) = .ok c ∧
    writeAmong smallEncode w [] (Interleaved.ofRecords smallLayout (List.replicate 3 smallRecord)) [] = .ok u ∧
    writeAmong smallEncode w [] c [] = .ok v ∧
    u.header.byReturn = List.replicate 15 0 ∧ v.header.byReturn = 3 :: List.replicate 14 0 := by
  obtain ⟨w, o⟩ := opens_las (n := 0) (by omega) smallEncode small_encode smallHeader rfl small_scales [] []
  obtain ⟨f, hf, hd, hlay, _⟩ := open_las o
  have ht := default_solid o
  obtain ⟨recs, hrec⟩ := small_stored 3
  have hw : ∀ b : Batch, written [.write b] = b.points := fun b => List.append_nil _
  obtain ⟨u1, u, _, a1, _, a3, ia, _⟩ := run_flush o [.write (smallBatch 3)] (by rw [hw]; exact hrec)
  have hdef : w.defaultLayout = packedLayout (writtenAttributes format0) := by
    obtain ⟨f', h1, _, h3⟩ := layouts_packed 0 (by omega)
    rw [hf] at h1
    cases h1
    rw [hlay] at h3
    cases hf
    exact Except.ok.inj h3
  have hp : ∀ t ∈ w.defaultLayout.attributes, named smallLayout t.name → (defaultPlan smallLayout t.definition).isSome := by
    rw [hdef]
    decide +kernel
  obtain ⟨⟨c, hc, sc⟩, _⟩ := at_once _ smallLayout w.defaultLayout small_solid ht _ (small_shows 3) hp
  have hv : ∀ p ∈ (smallBatch 3).points, ∀ d ∈ writtenAttributes f,
      lasValue ((defaultPlan smallLayout).apply p (zeroPoint w.defaultLayout)) d.name = lasValue p d.name := by
    intro p hp'
    rw [small_points] at hp'
    rw [List.eq_of_mem_replicate hp']
    exact converted_value small_solid ht hd hp _
  let b : Batch := ⟨VectorBuffer, c, _, _, sc.points, ht⟩
  obtain ⟨v1, v, _, b1, _, b3, ib, _⟩ := run_flush o [.write b] (recs := recs) (by
    rw [hw]
    exact (mapM_congr_map fun p hp' => storedRecord_congr hf _ (hv p hp')).trans hrec)
  have ia' := ia.header.finalize
  have ib' := ib.header.finalize
  rw [← a3] at ia'
  rw [← b3] at ib'
  refine ⟨w, c, u, v, o, hc, a1, b1, ?_, ?_⟩
  · have : writtenIn w.defaultLayout [.write (smallBatch 3)] = [] := by
      show (if smallLayout = w.defaultLayout then _ else []) ++ [] = []
      rw [if_neg (small_not_default hd)]
      rfl
    rw [ia'.byReturn, this]
    rfl
  · have e : writtenIn w.defaultLayout [.write b] =
        (smallBatch 3).points.map fun p => (defaultPlan smallLayout).apply p (zeroPoint w.defaultLayout) := by
      show (if w.defaultLayout = w.defaultLayout then _ else []) ++ [] = _
      rw [if_pos rfl, List.append_nil]
    have hk : ∀ k, (withReturn k (writtenIn w.defaultLayout [.write b])).length = (withReturn k (smallBatch 3).points).length := by
      intro k
      rw [e]
      exact returns_congr k _ fun p hp' => hv p hp' returnNumber (by simp [writtenAttributes])
    rw [ib'.byReturn]
    simp only [hk, small_points]
    decide +kernel

/-- The hypotheses of `C112_las_partial` are met. -/
example : ∃ w, OpenedLas 0 smallEncode 12 smallHeader [] [] w ∧ Solid smallLayout ∧
    SourceShows (Interleaved.ofRecords smallLayout (List.replicate 3 smallRecord) : VectorBuffer) smallLayout
      (smallBatch 3).points ∧
    (∃ c, BufferLayoutConverter.forLayoutsWithDefault smallLayout w.defaultLayout = .ok c) ∧
    (written [.write (smallBatch 2)]).length + (smallBatch 3).points.length + (written [.flush]).length ≤ 2 ^ 32 - 1 := by
  obtain ⟨w, _, _, _, o, hc, _⟩ := C112_violated
  refine ⟨w, o, small_solid, small_shows 3, ?_, by simp [written, WriterCall.points, small_points]⟩
  obtain ⟨conv, h, _⟩ := bind_ok hc
  exact ⟨conv, h⟩

/-- Those of `C112_laz_partial`, with 50,000 points. -/
example : ∃ w, OpenedLaz 0 smallHeader w ∧
    SourceShows (Interleaved.ofRecords smallLayout (List.replicate 50000 smallRecord) : VectorBuffer) smallLayout
      (smallBatch 50000).points ∧ (smallBatch 50000).points.length % 50000 = 0 ∧
    ∃ c, BufferLayoutConverter.forLayoutsWithDefault smallLayout w.defaultLayout = .ok c := by
  obtain ⟨w, _, _, o, _⟩ := C107_laz_violated
  refine ⟨w, o, small_shows 50000, by rw [small_points, List.length_replicate], ?_⟩
  obtain ⟨w', _, _, _, o', hc, _⟩ := C112_violated
  obtain ⟨conv, h, _⟩ := bind_ok hc
  obtain ⟨f, hf, _, h1, _⟩ := open_laz o
  obtain ⟨f', hf', _, h2, _⟩ := open_las o'
  rw [hf] at hf'
  cases hf'
  rw [h1] at h2
  rw [Except.ok.inj h2]
  exact ⟨conv, h⟩

/-- A layout that cannot be converted: positions in a single number. -/
example : ∃ w, OpenedLas 0 smallEncode 12 smallHeader [] [] w ∧
    ¬ ∃ c, BufferLayoutConverter.forLayoutsWithDefault ⟨[⟨⟨"Position3D", .f64⟩, 0⟩], 8, 8⟩ w.defaultLayout = .ok c := by
  obtain ⟨w, o⟩ := opens_las (n := 0) (by omega) smallEncode small_encode smallHeader rfl small_scales [] []
  refine ⟨w, o, fun hc => ?_⟩
  have hp := (C28_with_default _ w.defaultLayout (default_solid o)).1.1 hc
  obtain ⟨f, hf, hd, hlay, _⟩ := open_las o
  have hm : Las.position3D ∈ w.defaultLayout.attributes.map Member.definition := by rw [hd.1]; simp [writtenAttributes]
  obtain ⟨t, ht, he⟩ := List.mem_map.1 hm
  have := hp t ht ⟨_, List.mem_singleton.2 rfl, (congrArg AttrDef.name he).symm⟩
  rw [he] at this
  exact absurd this (by decide)

/-- The same for LAZ. -/
example : ∃ w, OpenedLaz 0 smallHeader w ∧
    ¬ ∃ c, BufferLayoutConverter.forLayoutsWithDefault ⟨[⟨⟨"Position3D", .f64⟩, 0⟩], 8, 8⟩ w.defaultLayout = .ok c := by
  obtain ⟨w, _, _, o, _⟩ := C107_laz_violated
  obtain ⟨w', o'⟩ := opens_las (n := 0) (by omega) smallEncode small_encode smallHeader rfl small_scales [] []
  obtain ⟨f, hf, hd, h1, _⟩ := open_laz o
  obtain ⟨f', hf', _, h2, _⟩ := open_las o'
  rw [hf] at hf'
  cases hf'
  rw [h1] at h2
  refine ⟨w, o, fun hc => ?_⟩
  have hp := (C28_with_default _ w.defaultLayout (by rw [Except.ok.inj h2]; exact default_solid o')).1.1 hc
  have hm : Las.position3D ∈ w.defaultLayout.attributes.map Member.definition := by rw [hd.1]; simp [writtenAttributes]
  obtain ⟨t, ht, he⟩ := List.mem_map.1 hm
  have := hp t ht ⟨_, List.mem_singleton.2 rfl, (congrArg AttrDef.name he).symm⟩
  rw [he] at this
  exact absurd this (by decide)

end Pasture.Props
