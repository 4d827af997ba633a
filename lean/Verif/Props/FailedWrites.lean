import Verif.Lemmas.FailedWritesLas
import Verif.Props.LasRefuse

/-!
# C99: what a failed write leaves behind
-/

namespace Pasture.Props

open Spec Las BorrowedBuffer

/-! ## LAS -/

theorem accepted_cons (n : Nat) (t : Transforms) (b : Batch) (cs : List WriterCall) (h : b.accepted n t = true) :
    (WriterCall.write b :: cs).filter (WriterCall.accepted n t) = .write b :: cs.filter (WriterCall.accepted n t) :=
  List.filter_cons_of_pos h

theorem refused_cons (n : Nat) (t : Transforms) (b : Batch) (cs : List WriterCall) (h : b.accepted n t = false) :
    (WriterCall.write b :: cs).filter (WriterCall.accepted n t) = cs.filter (WriterCall.accepted n t) :=
  List.filter_cons_of_neg (by show ¬ b.accepted n t = true; rw [h]; exact Bool.false_ne_true)

theorem loose_run {encode : LasHeader → Bytes} {H : Nat} (hH : ∀ h, (encode h).length = H) {vlrs evlrs : Bytes} {n : Nat}
    {f : Format} (hf : Format.new n = .ok f) {l : PointLayout} (hd : DefaultFor f l) {start : LasHeader}
    (hs : start.format % 64 = n) (calls : List WriterCall) :
    ∀ {ps counted : List Point} {m : Nat} {recs : List Bytes} {w : RawLasWriter},
    Loose H vlrs evlrs n l start ps counted m recs w →
    ∃ recs', Loose H vlrs evlrs n l start
      (ps ++ (writesOf calls).flatMap (Batch.beforeRefusal n start.transforms))
      (counted ++ writtenIn l (calls.filter (WriterCall.accepted n start.transforms)))
      (m + (written (calls.filter (WriterCall.accepted n start.transforms))).length) recs' (goOnLas encode w calls) := by
  induction calls with
  | nil =>
    intro ps counted m recs w i
    refine ⟨recs, ?_⟩
    simpa [written, writtenIn, writesOf, goOnLas] using i
  | cons c cs ih =>
    intro ps counted m recs w i
    cases c with
    | flush =>
      obtain ⟨recs', j⟩ := ih (i.flush hH).1
      exact ⟨recs', j⟩
    | write b =>
      show ∃ recs', Loose H vlrs evlrs n l start (ps ++ (b.beforeRefusal n start.transforms ++ (writesOf cs).flatMap _)) _ _
        recs' (goOnLas encode (goOn (w.writeLeft b.buffer)) cs)
      rw [← List.append_assoc]
      rcases batch_cases n start.transforms b with ⟨h1, h2, recs₁, h3⟩ | ⟨h1, p, rest, recs₁, h2, h3, h4⟩
      · obtain ⟨recs', j⟩ := ih (i.write hf hd hs b h3)
        rw [accepted_cons n _ b cs h1, h2]
        refine ⟨recs', ?_⟩
        show Loose H vlrs evlrs n l start _ (counted ++ (countedIn l b ++ writtenIn l _)) (m + (b.points ++ written _).length) _ _
        rw [List.length_append, ← List.append_assoc, ← Nat.add_assoc]
        exact j
      · obtain ⟨recs', j⟩ := ih (i.refuse hf hd hs b h2 h3 h4)
        rw [refused_cons n _ b cs h1]
        exact ⟨recs', j⟩

/-- The box of a header that has seen the points. -/
theorem loose_bounded {H : Nat} {vlrs evlrs : Bytes} {n : Nat} {f : Format} (hf : Format.new n = .ok f) {l : PointLayout}
    {start : LasHeader} {ps counted : List Point} {m : Nat} {recs : List Bytes} {w : RawLasWriter}
    (i : Loose H vlrs evlrs n l start ps counted m recs w) (hmin : start.min = ⟨AABB.f64Max, AABB.f64Max, AABB.f64Max⟩)
    (hmax : start.max = ⟨AABB.f64Min, AABB.f64Min, AABB.f64Min⟩) (h0 : ps ≠ []) (ht : FiniteTransforms start.transforms)
    (hnan : NoNaN ps) : Bounded w.header ps := by
  have hn := (itemsOf_eq hf).2
  have i' : HeaderInv start ps counted { start with
      min := w.header.min, max := w.header.max, count := ps.length, byReturn := w.header.byReturn } :=
    ⟨rfl, rfl, rfl, rfl, i.min, i.max, i.byReturn, rfl⟩
  have hpos : ∀ p ∈ ps, ∃ q, lasPosition p = some q ∧ q.x.isInf = false ∧ q.y.isInf = false ∧ q.z.isInf = false := by
    intro p hp
    obtain ⟨r, hr⟩ := mapM_some_mem i.stored p hp
    obtain ⟨q, hq, ⟨x, hx⟩, ⟨y, hy⟩, ⟨z, hz⟩⟩ := stored_position hn hr
    have fin : ∀ {a : Axis} {u : F64} {z : Int}, FiniteAxis a → quantize a u = .ok z → u.isInf = false := by
      intro a u z ha hu
      by_contra hc
      rw [C37_infinite a ha u (by simpa using hc)] at hu
      cases hu
    exact ⟨q, hq, fin ht.1 hx, fin ht.2.1 hy, fin ht.2.2 hz⟩
  have : Bounded { start with
      min := w.header.min, max := w.header.max, count := ps.length, byReturn := w.header.byReturn } ps := by
    refine bounds_tight i' notNaN_max notNaN_min hmin hmax h0 (fun p hp => ?_) hnan ?_
    · obtain ⟨q, hq, _⟩ := hpos p hp
      exact ⟨q, hq⟩
    · intro p hp q hq
      obtain ⟨q', hq', e1, e2, e3⟩ := hpos p hp
      rw [hq] at hq'
      cases hq'
      obtain ⟨c1, c2, c3⟩ := hnan p hp q hq
      exact ⟨le_top c1 e1, le_top c2 e2, le_top c3 e3⟩
  exact this

/-- C99, what LAS files become: after any calls of `write` and `flush`, going on after failures, the file contains the
    records of all points of the successful writes and, between them, those of the points that failed writes contained
    before the first one that cannot be stored. The counts of the header are those of the successful writes, its bounds
    those of all records in the file. A flush that has something to do puts the extended VLRs behind the records. -/
theorem C99_las {n : Nat} {encode : LasHeader → Bytes} {H : Nat} {template : LasHeader} {vlrs evlrs : Bytes}
    {w : RawLasWriter} (o : OpenedLas n encode H template vlrs evlrs w) (calls : List WriterCall) :
    ∃ recs hd tail,
      Stored n template.transforms ((writesOf calls).flatMap (Batch.beforeRefusal n template.transforms)) recs ∧
      (goOnLas encode w calls).writer.data = hd ++ vlrs ++ recs.flatten ++ tail ∧ hd.length = H ∧
      (goOnLas encode w calls).writer.pos = (hd ++ vlrs ++ recs.flatten).length ∧ tail.length ≤ evlrs.length ∧
      (goOnLas encode w calls).header.count =
        (written (calls.filter (WriterCall.accepted n template.transforms))).length ∧
      CountsReturns (goOnLas encode w calls).header.byReturn
        (writtenIn w.defaultLayout (calls.filter (WriterCall.accepted n template.transforms))) ∧
      ((writesOf calls).flatMap (Batch.beforeRefusal n template.transforms) ≠ [] → FiniteTransforms template.transforms →
        NoNaN ((writesOf calls).flatMap (Batch.beforeRefusal n template.transforms)) →
        Bounded (goOnLas encode w calls).header
          ((writesOf calls).flatMap (Batch.beforeRefusal n template.transforms))) ∧
      ((goOnLas encode w calls).requiresFlush = true →
        (goOnLas encode w (calls ++ [.flush])).writer.data =
          encode (goOnLas encode w (calls ++ [.flush])).header ++ vlrs ++ recs.flatten ++ evlrs) := by
  obtain ⟨f, hf, hd, _, hfm, htr, _, _, hmin, hmax, i⟩ := open_las o
  have hs : w.header.format % 64 = n := by rw [hfm]; exact o.number
  obtain ⟨recs, j⟩ := loose_run o.header_size hf hd hs calls i.loose
  rw [htr, List.nil_append, List.nil_append, List.length_nil, Nat.zero_add] at j
  obtain ⟨hdr, tail, f1, f2, f3, f4⟩ := j.bytes
  refine ⟨recs, hdr, tail, htr ▸ j.stored, f2, f1, f3, f4, j.count, ?_, ?_, fun hr => ?_⟩
  · have i' : HeaderInv w.header [] (writtenIn w.defaultLayout (calls.filter (WriterCall.accepted n template.transforms)))
        { w.header with byReturn := (goOnLas encode w calls).header.byReturn, count := 0 } :=
      ⟨rfl, rfl, rfl, rfl, rfl, rfl, j.byReturn, rfl⟩
    have := counts_returns i'
    exact this
  · intro h0 ht hnan
    exact loose_bounded hf j hmin hmax h0 (by rw [htr]; exact ht) hnan
  · have e : goOnLas encode w (calls ++ [.flush]) = (goOnLas encode w calls).flush encode := by
      unfold goOnLas
      rw [List.foldl_append]
      rfl
    rw [e]
    exact ((j.flush o.header_size).2 hr).1

theorem unharmed_run {encode : LasHeader → Bytes} {H : Nat} (hH : ∀ h, (encode h).length = H) {vlrs evlrs : Bytes} {n : Nat}
    {f : Format} (hf : Format.new n = .ok f) {l : PointLayout} (hd : DefaultFor f l) {start : LasHeader}
    (hs : start.format % 64 = n) (calls : List WriterCall)
    (hfirst : ∀ b ∈ writesOf calls, b.accepted n start.transforms = true ∨ b.beforeRefusal n start.transforms = []) :
    ∀ {ps counted : List Point} {m : Nat} {recs : List Bytes} {w : RawLasWriter},
    Loose H vlrs evlrs n l start ps counted m recs w →
    runLas encode w (calls.filter (WriterCall.accepted n start.transforms)) = .ok (goOnLas encode w calls) := by
  induction calls with
  | nil => intro ps counted m recs w i; rfl
  | cons c cs ih =>
    intro ps counted m recs w i
    cases c with
    | flush =>
      show runLas encode (w.flush encode) (cs.filter (WriterCall.accepted n start.transforms)) =
        .ok (goOnLas encode (w.flush encode) cs)
      exact ih hfirst (i.flush hH).1
    | write b =>
      have hfirst' := fun b' hb' => hfirst b' (List.mem_cons_of_mem b hb')
      show _ = Except.ok (goOnLas encode (goOn (w.writeLeft b.buffer)) cs)
      rcases batch_cases n start.transforms b with ⟨h1, h2, recs₁, h3⟩ | ⟨h1, p, rest, recs₁, h2, h3, h4⟩
      · rw [accepted_cons n _ b cs h1]
        have hw : ∃ w', w.write b.buffer = .ok w' := by
          by_cases h0 : b.points = []
          · refine ⟨w, ?_⟩
            have hl0 : len b.buffer = 0 := by rw [batch_len, h0]; rfl
            unfold RawLasWriter.write RawLasWriter.writeDefault RawLasWriter.writeCustom
            rw [if_pos hl0, if_pos hl0]
            split <;> rfl
          · exact ⟨_, las_written hf (i.layout ▸ hd) (by rw [i.format]; exact hs) i.inside (by rw [i.byReturn]; simp) b h0
              (i.transforms ▸ h3)⟩
        obtain ⟨w', hw⟩ := hw
        have hl : w.writeLeft b.buffer = .ok w' := of_forget (by rw [forget_lasWrite]; exact hw)
        have j := i.write hf hd hs b h3
        rw [hl] at j ⊢
        show Except.bind (w.write b.buffer) _ = _
        rw [hw]
        exact ih hfirst' j
      · rw [refused_cons n _ b cs h1]
        have hnil : b.beforeRefusal n start.transforms = [] := by
          rcases hfirst b List.mem_cons_self with h | h
          · rw [h1] at h; cases h
          · exact h
        obtain rfl : recs₁ = [] := by rw [hnil] at h3; cases h3; rfl
        have hl := las_left hf (i.layout ▸ hd) (by rw [i.format]; exact hs) i.inside b h2
          (by rw [i.transforms]; exact h3) (by rw [i.transforms]; exact h4)
        have same : { w with
            writer := w.writer.write ([] : List Bytes).flatten
            header := boundedBy w.header (b.beforeRefusal n start.transforms) } = w := by
          rw [hnil, List.flatten_nil, write_nil i.inside]
          rfl
        rw [same] at hl
        rw [hl]
        exact ih hfirst' i

/-- **C99 in part**, LAS files: if no failed write has a point that can be stored before the first one that cannot, all is
    as if the failed writes had not been tried. Missing: the others (`C99_las_violated`). -/
theorem C99_las_partial {n : Nat} {encode : LasHeader → Bytes} {H : Nat} {template : LasHeader} {vlrs evlrs : Bytes}
    {w : RawLasWriter} (o : OpenedLas n encode H template vlrs evlrs w) (calls : List WriterCall)
    (hfirst : ∀ b ∈ writesOf calls, b.accepted n template.transforms = true ∨ b.beforeRefusal n template.transforms = []) :
    runLas encode w (calls.filter (WriterCall.accepted n template.transforms)) = .ok (goOnLas encode w calls) := by
  obtain ⟨f, hf, hd, _, hfm, htr, _, _, _, _, i⟩ := open_las o
  have hs : w.header.format % 64 = n := by rw [hfm]; exact o.number
  rw [← htr] at hfirst ⊢
  exact unharmed_run o.header_size hf hd hs calls hfirst i.loose

theorem goOn_append (encode : LasHeader → Bytes) (w : RawLasWriter) (as bs : List WriterCall) :
    goOnLas encode w (as ++ bs) = goOnLas encode (goOnLas encode w as) bs := by
  unfold goOnLas
  rw [List.foldl_append]

/-- After a successful write of some points there is something to flush. -/
theorem flush_needed {n : Nat} {encode : LasHeader → Bytes} {H : Nat} {template : LasHeader} {vlrs evlrs : Bytes}
    {w : RawLasWriter} (o : OpenedLas n encode H template vlrs evlrs w) (calls : List WriterCall) (b : Batch)
    (hb : b.accepted n template.transforms = true) (h0 : b.points ≠ []) :
    (goOnLas encode w (calls ++ [.write b])).requiresFlush = true := by
  obtain ⟨f, hf, hd, _, hfm, htr, _, _, _, _, i⟩ := open_las o
  have hs : w.header.format % 64 = n := by rw [hfm]; exact o.number
  obtain ⟨recs, j⟩ := loose_run o.header_size hf hd hs calls i.loose
  rw [goOn_append]
  generalize goOnLas encode w calls = w₁ at j
  show (goOn (w₁.writeLeft b.buffer)).requiresFlush = true
  rcases batch_cases n template.transforms b with ⟨h1, h2, recs₁, h3⟩ | ⟨h1, _⟩
  · have hw := las_written hf (j.layout ▸ hd) (by rw [j.format]; exact hs) j.inside (by rw [j.byReturn]; simp) b h0
      (recs := recs₁) (by rw [j.transforms, htr]; exact h3)
    rw [of_forget (x := w₁.writeLeft b.buffer) (by rw [forget_lasWrite]; exact hw)]
    rfl
  · rw [hb] at h1; cases h1

/-- **C99 is violated** by LAS files with extended VLRs, in general: a failed write after a flush writes over them, and
    a further flush does not repair that because it finds nothing to do. -/
theorem C99_las_evlrs_violated {n : Nat} {encode : LasHeader → Bytes} {H : Nat} {template : LasHeader} {vlrs evlrs : Bytes}
    {w : RawLasWriter} (o : OpenedLas n encode H template vlrs evlrs w) (calls : List WriterCall)
    (hr : (goOnLas encode w calls).requiresFlush = true) (b : Batch) (hb : b.accepted n template.transforms = false) :
    ∃ header recs recs',
      Stored n template.transforms ((writesOf calls).flatMap (Batch.beforeRefusal n template.transforms)) recs ∧
      Stored n template.transforms (b.beforeRefusal n template.transforms) recs' ∧
      (goOnLas encode w (calls ++ [.flush])).writer.data = encode header ++ vlrs ++ recs.flatten ++ evlrs ∧
      (goOnLas encode w (calls ++ [.flush, .write b, .flush])).writer.data =
        encode header ++ vlrs ++ recs.flatten ++ recs'.flatten ++ evlrs.drop recs'.flatten.length := by
  obtain ⟨f, hf, hd, _, hfm, htr, _, _, _, _, i⟩ := open_las o
  have hs : w.header.format % 64 = n := by rw [hfm]; exact o.number
  obtain ⟨recs, j⟩ := loose_run o.header_size hf hd hs calls i.loose
  rw [goOn_append, goOn_append]
  generalize goOnLas encode w calls = w₁ at j hr
  obtain ⟨k, k2⟩ := j.flush o.header_size
  obtain ⟨k2, _⟩ := k2 hr
  have k3 : (w₁.flush encode).requiresFlush = false := by
    unfold RawLasWriter.flush
    rw [hr]
    rfl
  rcases batch_cases n template.transforms b with ⟨h1, _⟩ | ⟨h1, p, rest, recs₁, h2, h3, h4⟩
  · rw [hb] at h1; cases h1
  · refine ⟨(w₁.flush encode).header, recs, recs₁, by rw [← htr]; exact j.stored, h3, k2, ?_⟩
    show ((goOn ((w₁.flush encode).writeLeft b.buffer)).flush encode).writer.data = _
    generalize w₁.flush encode = w₂ at k k2 k3
    rw [las_left hf (k.layout ▸ hd) (by rw [k.format]; exact hs) k.inside b h2 (by rw [k.transforms, htr]; exact h3)
      (by rw [k.transforms, htr]; exact h4)]
    have e : RawLasWriter.flush encode { w₂ with
        writer := w₂.writer.write recs₁.flatten, header := boundedBy w₂.header (b.beforeRefusal n template.transforms) } =
        { w₂ with
          writer := w₂.writer.write recs₁.flatten
          header := boundedBy w₂.header (b.beforeRefusal n template.transforms) } := by
      unfold RawLasWriter.flush
      rw [k3]
      rfl
    dsimp only [goOn]
    rw [e]
    obtain ⟨hdr, tail, f1, f2, f3, f4⟩ := k.bytes
    have hh : hdr = encode w₂.header := by
      have := congrArg (List.take H) (f2.symm.trans k2)
      rw [List.append_assoc, List.append_assoc, List.take_left' f1, List.append_assoc, List.append_assoc,
        List.take_left' (o.header_size _)] at this
      exact this
    have ht : tail = evlrs := by
      have := f2.symm.trans k2
      rw [hh] at this
      exact List.append_cancel_left this
    have e2 : w₂.writer = ⟨(hdr ++ vlrs ++ recs.flatten) ++ tail, (hdr ++ vlrs ++ recs.flatten).length⟩ := by
      rw [← f2, ← f3]
    show (w₂.writer.write recs₁.flatten).data = _
    rw [e2, write_at_end, hh, ht]

theorem written_one (b : Batch) : written [.write b] = b.points := by simp [written, WriterCall.points]

theorem writes_one (b : Batch) (g : Batch → List Point) : (writesOf [.write b]).flatMap g = g b := by simp [writesOf]

theorem writes_two (a b : Batch) (g : Batch → List Point) : (writesOf [.write a, .write b]).flatMap g = g a ++ g b := by
  simp [writesOf]

/-- Some points in a buffer of the layout `smallLayout`. -/
def smallPoints (rs : List Bytes) (h : ∀ r ∈ rs, r.length = 25) : Batch where
  β := VectorBuffer
  buffer := Interleaved.ofRecords smallLayout rs
  layout := smallLayout
  points := rs.map (pointOf smallLayout)
  shows := interleaved_shows_points small_solid h
  solid := small_solid

/-- The point (1, 0, 0). -/
def nearRecord : Bytes := [0, 0, 0, 0, 0, 0, 0xf0, 0x3f] ++ zeros 16 ++ [1]

/-- The points (0, 0, 0) and (2^31, 0, 0). The second cannot be stored. -/
def refusedBatch : Batch := smallPoints [smallRecord, farRecord] (by decide)

/-- The point (1, 0, 0). -/
def acceptedBatch : Batch := smallPoints [nearRecord] (by decide)

theorem refused_refused : refusedBatch.accepted 0 smallHeader.transforms = false := by decide +kernel

theorem accepted_accepted : acceptedBatch.accepted 0 smallHeader.transforms = true := by decide +kernel

/-- The records of the two points that can be stored. -/
theorem small_near : ∃ r₁ r₂, storedRecord 0 smallHeader.transforms (pointOf smallLayout smallRecord) = some r₁ ∧
    storedRecord 0 smallHeader.transforms (pointOf smallLayout nearRecord) = some r₂ ∧ r₁ ≠ r₂ ∧ r₁.length = 20 ∧
    r₂.length = 20 := by
  have h : ((storedRecord 0 smallHeader.transforms (pointOf smallLayout smallRecord)).any fun r₁ =>
      (storedRecord 0 smallHeader.transforms (pointOf smallLayout nearRecord)).any fun r₂ =>
        decide (r₁ ≠ r₂ ∧ r₁.length = 20 ∧ r₂.length = 20)) = true := by decide +kernel
  cases h₁ : storedRecord 0 smallHeader.transforms (pointOf smallLayout smallRecord) with
  | none => rw [h₁] at h; cases h
  | some r₁ =>
    cases h₂ : storedRecord 0 smallHeader.transforms (pointOf smallLayout nearRecord) with
    | none => rw [h₁, h₂] at h; cases h
    | some r₂ =>
      rw [h₁, h₂] at h
      obtain ⟨a, b, c⟩ := of_decide_eq_true (p := r₁ ≠ r₂ ∧ r₁.length = 20 ∧ r₂.length = 20) h
      exact ⟨r₁, r₂, rfl, rfl, a, b, c⟩

theorem far_refused : storedRecord 0 smallHeader.transforms (pointOf smallLayout farRecord) = none := by decide +kernel

theorem small_before : refusedBatch.beforeRefusal 0 smallHeader.transforms = [pointOf smallLayout smallRecord] := by
  have h₁ : storable 0 smallHeader.transforms (pointOf smallLayout smallRecord) = true := by decide +kernel
  have h₂ : storable 0 smallHeader.transforms (pointOf smallLayout farRecord) = false := by decide +kernel
  show [pointOf smallLayout smallRecord, pointOf smallLayout farRecord].takeWhile (storable 0 smallHeader.transforms) = _
  rw [List.takeWhile_cons_of_pos h₁, List.takeWhile_cons_of_neg (by rw [h₂]; exact Bool.false_ne_true)]

theorem near_before : acceptedBatch.beforeRefusal 0 smallHeader.transforms = [pointOf smallLayout nearRecord] := by
  have h₁ : storable 0 smallHeader.transforms (pointOf smallLayout nearRecord) = true := by decide +kernel
  show [pointOf smallLayout nearRecord].takeWhile (storable 0 smallHeader.transforms) = _
  rw [List.takeWhile_cons_of_pos h₁]
  rfl

/-- **C99 is violated** by LAS files: (0, 0, 0) and (2^31, 0, 0) are written, which fails; then (1, 0, 0), which succeeds,
    and the file is flushed. The header counts one point, and the one record that readers find is that of (0, 0, 0).
    Without the failed write it is that of (1, 0, 0). -/
theorem C99_las_violated : ∃ w w' rec, OpenedLas 0 smallEncode 12 smallHeader [] [] w ∧
    w.write refusedBatch.buffer = panicked ∧ Stored 0 smallHeader.transforms acceptedBatch.points [rec] ∧
    runLas smallEncode w [.write acceptedBatch, .flush] = .ok w' ∧ w'.header.count = 1 ∧
    w'.writer.data = smallEncode w'.header ++ rec ∧
    let w'' := goOnLas smallEncode w [.write refusedBatch, .write acceptedBatch, .flush]
    w''.header.count = 1 ∧ w''.writer.data.take 12 = smallEncode w''.header ∧ (w''.writer.data.drop 12).take 20 ≠ rec := by
  obtain ⟨w, o⟩ := opens_las (n := 0) (by omega) smallEncode small_encode smallHeader rfl small_scales [] []
  obtain ⟨r₁, r₂, hr₁, hr₂, hne, hl₁, hl₂⟩ := small_near
  have hst : Stored 0 smallHeader.transforms acceptedBatch.points [r₂] := by
    show [pointOf smallLayout nearRecord].mapM _ = _
    rw [List.mapM_cons, hr₂]
    rfl
  have hst' : Stored 0 smallHeader.transforms [pointOf smallLayout smallRecord, pointOf smallLayout nearRecord] [r₁, r₂] := by
    unfold Stored
    rw [List.mapM_cons, List.mapM_cons, hr₁, hr₂]
    rfl
  have hrefused : ∃ e, w.writeLeft refusedBatch.buffer = .error (.panic, e) := by
    obtain ⟨f, hf, hd, _, hfm, htr, _, _, _, _, i⟩ := open_las o
    exact ⟨_, las_left hf hd (by rw [hfm]; exact o.number) i.loose.inside refusedBatch
      (good := [pointOf smallLayout smallRecord]) (p := pointOf smallLayout farRecord) (rest := []) rfl (recs := [r₁])
      (by rw [htr]; unfold Stored; rw [List.mapM_cons, hr₁]; rfl)
      (by rw [htr]; exact far_refused)⟩
  obtain ⟨e, hrefused⟩ := hrefused
  obtain ⟨w₁, w', _, g1, g2, g3, g4, _⟩ := run_flush o [.write acceptedBatch] (recs := [r₂])
    (by rw [written_one]; exact hst)
  refine ⟨w, w', r₂, o, ?_, hst, g1, ?_, ?_, ?_⟩
  · rw [← forget_lasWrite, hrefused]
    rfl
  · rw [g3, (finalize_kept _).2.2.1, g4.header.count]
    rfl
  · rw [g2]
    simp
  · obtain ⟨recs, _, _, a1, _, _, _, _, _, _, _, a8⟩ := C99_las o [.write refusedBatch, .write acceptedBatch]
    obtain ⟨_, _, _, _, _, _, _, _, b6, _⟩ := C99_las o [.write refusedBatch, .write acceptedBatch, .flush]
    have hf := flush_needed o [.write refusedBatch] acceptedBatch accepted_accepted (by show _ ≠ []; simp [acceptedBatch, smallPoints])
    have a8 := a8 hf
    have hp : (writesOf [.write refusedBatch, .write acceptedBatch]).flatMap (Batch.beforeRefusal 0 smallHeader.transforms) =
        [pointOf smallLayout smallRecord, pointOf smallLayout nearRecord] := by
      rw [writes_two, small_before, near_before]
      rfl
    rw [hp] at a1
    obtain rfl : recs = [r₁, r₂] := Option.some.inj (a1.symm.trans hst')
    change (goOnLas smallEncode w [.write refusedBatch, .write acceptedBatch, .flush]).writer.data = _ at a8
    rw [refused_cons _ _ _ _ refused_refused, accepted_cons _ _ _ _ accepted_accepted] at b6
    refine ⟨b6, ?_, ?_⟩
    · rw [a8, List.append_nil, List.append_nil, List.take_left' (small_encode _)]
      rfl
    · rw [a8, List.append_nil, List.append_nil, List.drop_left' (small_encode _)]
      show (r₁ ++ (r₂ ++ [])).take 20 ≠ _
      rw [List.take_left' hl₁]
      exact hne

/-- The hypotheses of `C99_las_evlrs_violated` are met: the extended VLRs are overwritten by the record of a point that
    was never written. -/
example : ∃ w rec, OpenedLas 0 smallEncode 12 smallHeader [] (List.replicate 30 0xff) w ∧
    Stored 0 smallHeader.transforms [pointOf smallLayout smallRecord] [rec] ∧ rec.length = 20 ∧
    (goOnLas smallEncode w [.write acceptedBatch, .flush]).writer.data.drop 32 = List.replicate 30 0xff ∧
    (goOnLas smallEncode w [.write acceptedBatch, .flush, .write refusedBatch, .flush]).writer.data.drop 32 =
      rec ++ List.replicate 10 0xff := by
  obtain ⟨w, o⟩ := opens_las (n := 0) (by omega) smallEncode small_encode smallHeader rfl small_scales []
    (List.replicate 30 0xff)
  obtain ⟨r₁, r₂, hr₁, hr₂, hne, hl₁, hl₂⟩ := small_near
  have hs₁ : Stored 0 smallHeader.transforms [pointOf smallLayout smallRecord] [r₁] := by
    unfold Stored; rw [List.mapM_cons, hr₁]; rfl
  have hs₂ : Stored 0 smallHeader.transforms [pointOf smallLayout nearRecord] [r₂] := by
    unfold Stored; rw [List.mapM_cons, hr₂]; rfl
  obtain ⟨header, recs, recs', h1, h2, h3, h4⟩ := C99_las_evlrs_violated o [.write acceptedBatch]
    (flush_needed o [] acceptedBatch accepted_accepted (by simp [acceptedBatch, smallPoints])) refusedBatch refused_refused
  have hp : (writesOf [.write acceptedBatch]).flatMap (Batch.beforeRefusal 0 smallHeader.transforms) =
      [pointOf smallLayout nearRecord] := by
    rw [writes_one, near_before]
  rw [hp] at h1
  rw [small_before] at h2
  obtain rfl : recs = [r₂] := Option.some.inj (h1.symm.trans hs₂)
  obtain rfl : recs' = [r₁] := Option.some.inj (h2.symm.trans hs₁)
  refine ⟨w, r₁, o, hs₁, hl₁, ?_, ?_⟩
  · change (goOnLas smallEncode w [.write acceptedBatch, .flush]).writer.data = _ at h3
    rw [h3]
    exact List.drop_left' (by simp [small_encode, hl₂])
  · change (goOnLas smallEncode w [.write acceptedBatch, .flush, .write refusedBatch, .flush]).writer.data = _ at h4
    rw [h4, List.append_assoc, List.drop_left' (by simp [small_encode, hl₂])]
    simp [hl₁]

/-- The hypotheses of `C99_las_partial` are met: a failed write of two points, of which the first cannot be stored. -/
example : ∃ w, OpenedLas 0 smallEncode 12 smallHeader [] [] w ∧
    runLas smallEncode w [.write acceptedBatch] =
      .ok (goOnLas smallEncode w [.write (smallPoints [farRecord, smallRecord] (by decide)), .write acceptedBatch]) := by
  obtain ⟨w, o⟩ := opens_las (n := 0) (by omega) smallEncode small_encode smallHeader rfl small_scales [] []
  refine ⟨w, o, ?_⟩
  have h := C99_las_partial o [.write (smallPoints [farRecord, smallRecord] (by decide)), .write acceptedBatch]
    (by
      intro b hb
      rcases List.mem_cons.1 hb with rfl | hb
      · exact .inr (by decide +kernel)
      · obtain rfl := List.mem_singleton.1 hb
        exact .inl accepted_accepted)
  rw [refused_cons _ _ _ _ (by decide +kernel), accepted_cons _ _ _ _ accepted_accepted] at h
  exact h

/-! ## LAZ -/

theorem looseLaz_run {n : Nat} {f : Format} (hf : Format.new n = .ok f) {l : PointLayout} (hd : DefaultFor f l)
    {start : LasHeader} (hs : start.format % 64 = n) (hrl : start.recordLength = lasRecordLength n) (bs : List Batch)
    (hb : ∀ b ∈ bs, b.layout = l) :
    ∀ {ps kept counted : List Point} {m : Nat} {w : RawLazWriter}, LooseLaz n l start ps kept counted m w →
    LooseLaz n l start (ps ++ bs.flatMap (Batch.beforeRefusal n start.transforms))
      (kept ++ bs.flatMap (Batch.compressed n start.transforms))
      (counted ++ (bs.filter (Batch.accepted n start.transforms)).flatMap Batch.points)
      (m + ((bs.filter (Batch.accepted n start.transforms)).flatMap Batch.points).length) (goOnLaz w bs) := by
  induction bs with
  | nil =>
    intro ps kept counted m w i
    simpa [goOnLaz] using i
  | cons b bs ih =>
    intro ps kept counted m w i
    have hb' := fun b' h => hb b' (List.mem_cons_of_mem b h)
    show LooseLaz n l start (ps ++ (b.beforeRefusal n start.transforms ++ bs.flatMap _))
      (kept ++ (b.compressed n start.transforms ++ bs.flatMap _)) _ _ (goOnLaz (goOn (w.writeLeft b.buffer)) bs)
    rw [← List.append_assoc, ← List.append_assoc]
    rcases batch_cases n start.transforms b with ⟨h1, h2, recs₁, h3⟩ | ⟨h1, p, rest, recs₁, h2, h3, h4⟩
    · have j := ih hb' (i.write hf hd hs hrl b (hb b List.mem_cons_self) h3)
      have hc : b.compressed n start.transforms = b.points := by unfold Batch.compressed; rw [h1]; rfl
      rw [List.filter_cons_of_pos h1, h2, hc, List.flatMap_cons, List.length_append, ← List.append_assoc, ← Nat.add_assoc]
      exact j
    · have j := ih hb' (i.refuse hf hd hs hrl b h2 h3 h4)
      have hc : b.compressed n start.transforms = (b.beforeRefusal n start.transforms).take
          ((b.beforeRefusal n start.transforms).length / chunkPoints * chunkPoints) := by
        unfold Batch.compressed; rw [h1]; rfl
      rw [List.filter_cons_of_neg (by rw [h1]; exact Bool.false_ne_true), hc]
      exact j

theorem open_looseLaz {n : Nat} {template : LasHeader} {w : RawLazWriter} (o : OpenedLaz n template w) :
    LooseLaz n w.defaultLayout w.header [] [] [] 0 w := by
  obtain ⟨f, hf, hd, _, hfm, htr, hrl, _, _, hmin, hmax, hh, i⟩ := open_laz o
  exact ⟨rfl, rfl, rfl, rfl, i.header.count, rfl, rfl, i.header.byReturn, ⟨[], rfl⟩, [], rfl, hh⟩

/-- C99, what LAZ files become: after any writes of points in the default layout of the file, going on after failures, the
    compressor has the records of the points of the successful writes and of the whole chunks of 50000 points that failed
    writes contained before the first point that cannot be stored. The counts of the header are those of the successful
    writes, its bounds those of all points up to the failures. -/
theorem C99_laz {n : Nat} {template : LasHeader} {w : RawLazWriter} (o : OpenedLaz n template w) (bs : List Batch)
    (hb : ∀ b ∈ bs, b.layout = w.defaultLayout) :
    (∃ recs, Stored n template.transforms (bs.flatMap (Batch.compressed n template.transforms)) recs ∧
      (goOnLaz w bs).handed = recs.flatten) ∧
    (goOnLaz w bs).header.count = ((bs.filter (Batch.accepted n template.transforms)).flatMap Batch.points).length ∧
    CountsReturns (goOnLaz w bs).header.byReturn ((bs.filter (Batch.accepted n template.transforms)).flatMap Batch.points) ∧
    (bs.flatMap (Batch.beforeRefusal n template.transforms) ≠ [] →
      NoNaN (bs.flatMap (Batch.beforeRefusal n template.transforms)) →
      Bounded (goOnLaz w bs).header (bs.flatMap (Batch.beforeRefusal n template.transforms))) := by
  obtain ⟨f, hf, hd, _, hfm, htr, hrl, _, _, hmin, hmax, hh, i⟩ := open_laz o
  have hs : w.header.format % 64 = n := by rw [hfm]; exact o.number
  have hr : w.header.recordLength = lasRecordLength n := by rw [hrl]; exact o.length
  have j := looseLaz_run hf hd hs hr bs hb (open_looseLaz o)
  rw [htr, List.nil_append, List.nil_append, List.nil_append, Nat.zero_add] at j
  obtain ⟨recs, k1, k2⟩ := j.keeps
  obtain ⟨recs₀, k3⟩ := j.stored
  refine ⟨⟨recs, htr ▸ k1, k2⟩, j.count, ?_, fun h0 hnan => ?_⟩
  · have i' : HeaderInv w.header [] ((bs.filter (Batch.accepted n template.transforms)).flatMap Batch.points)
        { w.header with byReturn := (goOnLaz w bs).header.byReturn, count := 0 } :=
      ⟨rfl, rfl, rfl, rfl, rfl, rfl, j.byReturn, rfl⟩
    have := counts_returns i'
    exact this
  · have hn := (itemsOf_eq hf).2
    have i' : HeaderInv w.header (bs.flatMap (Batch.beforeRefusal n template.transforms))
        ((bs.filter (Batch.accepted n template.transforms)).flatMap Batch.points) { w.header with
          min := (goOnLaz w bs).header.min
          max := (goOnLaz w bs).header.max
          count := (bs.flatMap (Batch.beforeRefusal n template.transforms)).length
          byReturn := (goOnLaz w bs).header.byReturn } :=
      ⟨rfl, rfl, rfl, rfl, j.min, j.max, j.byReturn, rfl⟩
    have := bounds_tight i' (by unfold NotNaN; decide) (by unfold NotNaN; decide) hmin hmax h0
      (fun p hp => by
        obtain ⟨r, hr⟩ := mapM_some_mem k3 p hp
        obtain ⟨q, hq, _⟩ := stored_position hn hr
        exact ⟨q, hq⟩) hnan
      (fun p hp q hq => by
        obtain ⟨c1, c2, c3⟩ := hnan p hp q hq
        exact ⟨le_inf c1, le_inf c2, le_inf c3⟩)
    exact this

/-- What every write leaves as it is. -/
structure SameLaz (l : PointLayout) (start : LasHeader) (w : RawLazWriter) : Prop where
  layout : w.defaultLayout = l
  transforms : w.header.transforms = start.transforms
  format : w.header.format = start.format
  recordLength : w.header.recordLength = start.recordLength
  byReturn : w.header.byReturn.length = 15

theorem unharmedLaz_run {n : Nat} {f : Format} (hf : Format.new n = .ok f) {l : PointLayout} (hd : DefaultFor f l)
    {start : LasHeader} (hs : start.format % 64 = n) (hrl : start.recordLength = lasRecordLength n) (bs : List Batch)
    (hfirst : ∀ b ∈ bs, b.accepted n start.transforms = true ∨ b.beforeRefusal n start.transforms = []) :
    ∀ {w : RawLazWriter}, SameLaz l start w →
    runLaz w (bs.filter (Batch.accepted n start.transforms)) = .ok (goOnLaz w bs) := by
  induction bs with
  | nil => intro w i; rfl
  | cons b bs ih =>
    intro w i
    have hfirst' := fun b' hb' => hfirst b' (List.mem_cons_of_mem b hb')
    show _ = Except.ok (goOnLaz (goOn (w.writeLeft b.buffer)) bs)
    rcases batch_cases n start.transforms b with ⟨h1, h2, recs₁, h3⟩ | ⟨h1, p, rest, recs₁, h2, h3, h4⟩
    · rw [List.filter_cons_of_pos h1]
      have hw : ∃ w', w.write b.buffer = .ok w' ∧ SameLaz l start w' := by
        by_cases h0 : b.points = []
        · refine ⟨w, ?_, i⟩
          have hl0 : len b.buffer = 0 := by rw [batch_len, h0]; rfl
          unfold RawLazWriter.write RawLazWriter.writeDefault RawLazWriter.writeCustom
          rw [if_pos hl0, if_pos hl0]
          split <;> rfl
        · obtain ⟨handed, hw, _⟩ := laz_written hf (w := w) (i.layout ▸ hd) (by rw [i.format]; exact hs)
            (by rw [i.recordLength]; exact hrl) i.byReturn b h0 (recs := recs₁) (by rw [i.transforms]; exact h3)
          have hbf := boundedBy_fields w.header b.points
          refine ⟨_, hw, i.layout, ?_, ?_, ?_, ?_⟩
          · show (boundedBy w.header b.points).transforms = _; rw [hbf]; exact i.transforms
          · show (boundedBy w.header b.points).format = _; rw [hbf]; exact i.format
          · show (boundedBy w.header b.points).recordLength = _; rw [hbf]; exact i.recordLength
          · show (w.header.byReturn.mapIdx _).length = 15
            rw [List.length_mapIdx]
            exact i.byReturn
      obtain ⟨w', hw, j⟩ := hw
      rw [of_forget (x := w.writeLeft b.buffer) (by rw [forget_lazWrite]; exact hw)]
      show Except.bind (w.write b.buffer) _ = _
      rw [hw]
      exact ih hfirst' j
    · rw [List.filter_cons_of_neg (by rw [h1]; exact Bool.false_ne_true)]
      have hnil : b.beforeRefusal n start.transforms = [] := by
        rcases hfirst b List.mem_cons_self with h | h
        · rw [h1] at h; cases h
        · exact h
      obtain rfl : recs₁ = [] := by rw [hnil] at h3; cases h3; rfl
      have hl := laz_left hf (w := w) (i.layout ▸ hd) (by rw [i.format]; exact hs) (by rw [i.recordLength]; exact hrl) b h2
        (by rw [i.transforms]; exact h3) (by rw [i.transforms]; exact h4)
      rw [hl, hnil, List.take_nil, List.flatten_nil, List.append_nil]
      exact ih hfirst' i

/-- **C99 in part**, LAZ files: if no failed write has a point that can be stored before the first one that cannot, all is
    as if the failed writes had not been tried. Missing: the others (`C99_laz_violated`). -/
theorem C99_laz_partial {n : Nat} {template : LasHeader} {w : RawLazWriter} (o : OpenedLaz n template w) (bs : List Batch)
    (hfirst : ∀ b ∈ bs, b.accepted n template.transforms = true ∨ b.beforeRefusal n template.transforms = []) :
    runLaz w (bs.filter (Batch.accepted n template.transforms)) = .ok (goOnLaz w bs) := by
  obtain ⟨f, hf, hd, _, hfm, htr, hrl, _, _, hmin, hmax, hh, i⟩ := open_laz o
  have hs : w.header.format % 64 = n := by rw [hfm]; exact o.number
  have hr : w.header.recordLength = lasRecordLength n := by rw [hrl]; exact o.length
  rw [← htr] at hfirst ⊢
  exact unharmedLaz_run hf hd hs hr bs hfirst ⟨rfl, rfl, rfl, rfl, by rw [i.header.byReturn]; simp⟩

/-- The bounds after the two points, from the infinite ones of a new writer. -/
theorem small_bounds {h : LasHeader} (hmin : h.min = ⟨.inf .f64 false, .inf .f64 false, .inf .f64 false⟩) :
    (boundedBy h [pointOf smallLayout nearRecord]).min.x = .ofBits .f64 0x3ff0000000000000 ∧
    (boundedBy (boundedBy h [pointOf smallLayout smallRecord]) [pointOf smallLayout nearRecord]).min.x = .zero .f64 := by
  have hx : h.min.x = .inf .f64 false := by rw [hmin]
  constructor
  · show (if Flt.lt (posOf (pointOf smallLayout nearRecord)).x h.min.x then (posOf (pointOf smallLayout nearRecord)).x
      else h.min.x) = _
    rw [hx]
    decide +kernel
  · show (if Flt.lt (posOf (pointOf smallLayout nearRecord)).x
        (if Flt.lt (posOf (pointOf smallLayout smallRecord)).x h.min.x then (posOf (pointOf smallLayout smallRecord)).x
          else h.min.x) then (posOf (pointOf smallLayout nearRecord)).x
      else (if Flt.lt (posOf (pointOf smallLayout smallRecord)).x h.min.x then (posOf (pointOf smallLayout smallRecord)).x
          else h.min.x)) = _
    rw [hx]
    decide +kernel

/-- **C99 is violated** by LAZ files: (0, 0, 0) and (2^31, 0, 0) are written, which fails, then (1, 0, 0), which succeeds.
    The header counts one point, but the bounds start at 0. Without the failed write they start at 1. -/
theorem C99_laz_violated : ∃ w w', OpenedLaz 0 smallHeader w ∧ w.write refusedBatch.buffer = panicked ∧
    runLaz w [acceptedBatch] = .ok w' ∧ w'.header.count = 1 ∧ w'.header.min.x = .ofBits .f64 0x3ff0000000000000 ∧
    (goOnLaz w [refusedBatch, acceptedBatch]).header.count = 1 ∧
    (goOnLaz w [refusedBatch, acceptedBatch]).header.min.x = .zero .f64 := by
  obtain ⟨w, o⟩ := opens_laz (n := 0) (by omega) smallHeader rfl rfl small_scales
  obtain ⟨f, hf, hd, _, hfm, htr, hrl, _, _, hmin, hmax, hh, i⟩ := open_laz o
  have hs : w.header.format % 64 = 0 := by rw [hfm]; exact o.number
  have hr : w.header.recordLength = lasRecordLength 0 := by rw [hrl]; exact o.length
  obtain ⟨r₁, r₂, hr₁, hr₂, hne, hl₁, hl₂⟩ := small_near
  have hst : Stored 0 smallHeader.transforms acceptedBatch.points [r₂] := by
    show [pointOf smallLayout nearRecord].mapM _ = _
    rw [List.mapM_cons, hr₂]
    rfl
  have hne : acceptedBatch.points ≠ [] := by simp [acceptedBatch, smallPoints]
  have h15 : w.header.byReturn.length = 15 := by rw [i.header.byReturn]; simp
  have hrefused := laz_left hf hd hs hr refusedBatch
      (good := [pointOf smallLayout smallRecord]) (p := pointOf smallLayout farRecord) (rest := []) rfl (recs := [r₁])
      (by rw [htr]; unfold Stored; rw [List.mapM_cons, hr₁]; rfl)
      (by rw [htr]; exact far_refused)
  obtain ⟨a, ha, _⟩ := laz_written hf hd hs hr h15 acceptedBatch hne (by rw [htr]; exact hst)
  obtain ⟨b1, b2⟩ := small_bounds hmin
  have hbf := boundedBy_fields w.header [pointOf smallLayout smallRecord]
  obtain ⟨c, hc, _⟩ := laz_written hf (w := { w with
        handed := w.handed ++ ([r₁].take ([pointOf smallLayout smallRecord].length / chunkPoints * chunkPoints)).flatten
        header := boundedBy w.header [pointOf smallLayout smallRecord] }) hd
      (by show (boundedBy w.header [pointOf smallLayout smallRecord]).format % 64 = 0; rw [hbf]; exact hs)
      (by show (boundedBy w.header [pointOf smallLayout smallRecord]).recordLength = _; rw [hbf]; exact hr)
      (by show (boundedBy w.header [pointOf smallLayout smallRecord]).byReturn.length = _; rw [hbf]; exact h15)
      acceptedBatch hne (recs := [r₂])
      (by show Stored 0 (boundedBy w.header [pointOf smallLayout smallRecord]).transforms _ _; rw [hbf, htr]; exact hst)
  have hgo : goOnLaz w [refusedBatch, acceptedBatch] = goOn (RawLazWriter.writeLeft
      (goOn (w.writeLeft refusedBatch.buffer)) acceptedBatch.buffer) := rfl
  rw [hrefused] at hgo
  change _ = goOn (RawLazWriter.writeLeft _ acceptedBatch.buffer) at hgo
  dsimp only [goOn] at hgo
  rw [of_forget ((forget_lazWrite _ acceptedBatch.buffer).trans hc)] at hgo
  refine ⟨w, { w with
      handed := a
      header := { boundedBy w.header acceptedBatch.points with
        count := w.header.count + acceptedBatch.points.length
        byReturn := w.header.byReturn.mapIdx fun i x =>
          x + (withReturn (i + 1) (countedIn w.defaultLayout acceptedBatch)).length } }, o, ?_, ?_, ?_, b1, ?_, by rw [hgo]; exact b2⟩
  · rw [← forget_lazWrite, hrefused]
    rfl
  · show Except.bind (w.write acceptedBatch.buffer) _ = _
    rw [ha]
    rfl
  · show w.header.count + 1 = 1
    rw [i.header.count]
    rfl
  · rw [hgo]
    show (boundedBy w.header [pointOf smallLayout smallRecord]).count + 1 = 1
    rw [hbf]
    show w.header.count + 1 = 1
    rw [i.header.count]
    rfl

/-- The default layout of format 0. -/
def zeroLayout : PointLayout :=
  ⟨[⟨position3D, 0⟩, ⟨intensity, 24⟩, ⟨returnNumber, 26⟩, ⟨numberOfReturns, 27⟩, ⟨scanDirectionFlag, 28⟩,
    ⟨edgeOfFlightLine, 29⟩, ⟨classification, 30⟩, ⟨scanAngleRank, 31⟩, ⟨userData, 32⟩, ⟨pointSourceId, 33⟩], 35, 1⟩

theorem zero_solid : Solid zeroLayout := by decide +kernel

/-- (0, 0, 0) and (2^31, 0, 0) in this layout. -/
def zeroBatch : Batch where
  β := VectorBuffer
  buffer := Interleaved.ofRecords zeroLayout [zeros 35, [0, 0, 0, 0, 0, 0, 0xe0, 0x41] ++ zeros 27]
  layout := zeroLayout
  points := [zeros 35, [0, 0, 0, 0, 0, 0, 0xe0, 0x41] ++ zeros 27].map (pointOf zeroLayout)
  shows := interleaved_shows_points zero_solid (by unfold AllLen; decide)
  solid := zero_solid

/-- `C99_laz` applies to a batch that is refused after its first point, and `C99_laz_partial` to one refused at once. -/
example : ∃ w, OpenedLaz 0 smallHeader w ∧ zeroBatch.layout = w.defaultLayout ∧
    zeroBatch.accepted 0 smallHeader.transforms = false ∧
    (zeroBatch.beforeRefusal 0 smallHeader.transforms).length = 1 ∧ (goOnLaz w [zeroBatch]).handed = [] ∧
    runLaz w [acceptedBatch] = .ok (goOnLaz w [smallPoints [farRecord, smallRecord] (by decide), acceptedBatch]) := by
  obtain ⟨w, o⟩ := opens_laz (n := 0) (by omega) smallHeader rfl rfl small_scales
  obtain ⟨f, hf, _, hm, _⟩ := open_laz o
  have hz : (Format.new 0).bind (fun f => pointLayoutFromMetadata ⟨f, none⟩ false) = .ok zeroLayout := by decide +kernel
  rw [hf] at hz
  have hl : zeroLayout = w.defaultLayout := Except.ok.inj (hz.symm.trans hm)
  have hno : zeroBatch.accepted 0 smallHeader.transforms = false := by decide +kernel
  have hone : (zeroBatch.beforeRefusal 0 smallHeader.transforms).length = 1 := by decide +kernel
  refine ⟨w, o, hl, hno, hone, ?_, ?_⟩
  · obtain ⟨⟨recs, h1, h2⟩, _⟩ := C99_laz o [zeroBatch] (by intro b hb; obtain rfl := List.mem_singleton.1 hb; exact hl)
    have hc : zeroBatch.compressed 0 smallHeader.transforms = [] := by
      unfold Batch.compressed
      rw [hno, hone]
      rfl
    rw [List.flatMap_cons, hc] at h1
    cases h1
    exact h2
  · have h := C99_laz_partial o [smallPoints [farRecord, smallRecord] (by decide), acceptedBatch] (by
      intro b hb
      rcases List.mem_cons.1 hb with rfl | hb
      · exact .inr (by decide +kernel)
      · obtain rfl := List.mem_singleton.1 hb
        exact .inl accepted_accepted)
    rw [List.filter_cons_of_neg (by
      have : (smallPoints [farRecord, smallRecord] (by decide)).accepted 0 smallHeader.transforms = false := by decide +kernel
      rw [this]; exact Bool.false_ne_true), List.filter_cons_of_pos accepted_accepted] at h
    exact h

end Pasture.Props
