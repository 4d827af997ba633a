import Verif.Model.FailedWrites
import Verif.Lemmas.FailedReads
import Verif.Lemmas.LasRefuse

/-!
# `write` with and without the writer it leaves behind
-/

namespace Pasture

open Las Spec BorrowedBuffer

theorem forget_mapError {ρ ρ' α : Type} (x : Left ρ α) (g : Fault × ρ → Fault × ρ') (hg : ∀ e, (g e).1 = e.1) :
    forget (x.mapError g) = forget x := by
  cases x with
  | ok a => rfl
  | error e => exact congrArg Except.error (hg e)

theorem forget_error {ρ α : Type} (f : Fault) (r : ρ) : forget (.error (f, r) : Left ρ α) = .error f := rfl

/-- A loop that goes well up to step `j`, which fails. -/
theorem leftLoop_refuse {σ ρ : Type} {f : σ → Nat → Left ρ σ} {P : Nat → σ → Prop} {Q : ρ → Prop} :
    ∀ (k i : Nat) (s : σ) (j : Nat), P i s → i ≤ j → j < i + k →
    (∀ m s, i ≤ m → m < j → P m s → ∃ s', f s m = .ok s' ∧ P (m + 1) s') →
    (∀ s, P j s → ∃ e, f s j = .error (.panic, e) ∧ Q e) →
    ∃ e, (List.range' i k).foldlM f s = .error (.panic, e) ∧ Q e := by
  intro k
  induction k with
  | zero => intro i s j _ _ _; omega
  | succ k ih =>
    intro i s j h0 h1 h2 hstep hfail
    rw [List.range'_succ, List.foldlM_cons]
    by_cases hij : i = j
    · subst hij
      obtain ⟨e, e1, e2⟩ := hfail s h0
      rw [e1]
      exact ⟨e, rfl, e2⟩
    · obtain ⟨s', e1, e2⟩ := hstep i s (Nat.le_refl _) (by omega) h0
      rw [e1]
      exact ih (i + 1) s' j e2 (by omega) (by omega) (fun m s a b => hstep m s (by omega) b) hfail

namespace Las

section
variable {β σ : Type} [BorrowedBuffer β]

theorem forget_writeChunk (b : β) (size : Nat) (sink : Sink σ) (leave : σ → Stream → σ)
    (point : Nat → PointState → Out PointState) (st : ChunkState σ) (k : Nat) :
    forget (writeChunkLeft b size sink leave point st k) = writeChunk b size sink point st k := by
  unfold writeChunkLeft writeChunk
  simp only [forget_bind, forget_leaving, forget_pure]
  congr 1
  funext slice
  congr 1
  funext slice'
  rw [forget_loop (g := fun ps i => point i ps) (fun x a => forget_leaving _ _)]

theorem forget_writeChunks (b : β) (size : Nat) (sink : Sink σ) (leave : σ → Stream → σ)
    (point : Nat → PointState → Out PointState) (out : σ) (header : LasHeader) :
    forget (writeChunksLeft b size sink leave point out header) = writeChunks b size sink point out header := by
  unfold writeChunksLeft writeChunks
  simp only [forget_bind, forget_leaving, forget_pure]
  rw [forget_loop (g := writeChunk b size sink point) (fun x a => forget_writeChunk ..)]

theorem forget_lasWrite (w : RawLasWriter) (b : β) : forget (w.writeLeft b) = w.write b := by
  unfold RawLasWriter.writeLeft RawLasWriter.write
  split
  · unfold RawLasWriter.writeDefaultLeft RawLasWriter.writeDefault
    split
    · rfl
    · simp only [forget_bind, forget_leaving, forget_pure]
      congr 1
      funext f
      rw [forget_mapError _ w.leave fun _ => rfl, forget_writeChunks]
  · unfold RawLasWriter.writeCustomLeft RawLasWriter.writeCustom
    split
    · rfl
    · simp only [forget_bind, forget_leaving, forget_pure]
      congr 1
      funext f
      congr 1
      funext readers
      rw [forget_mapError _ w.leave fun _ => rfl, forget_writeChunks]

theorem forget_lazWrite (w : RawLazWriter) (b : β) : forget (w.writeLeft b) = w.write b := by
  unfold RawLazWriter.writeLeft RawLazWriter.write
  split
  · unfold RawLazWriter.writeCustomLeft RawLazWriter.writeCustom
    split
    · rfl
    · simp only [forget_bind, forget_leaving, forget_pure]
      congr 1
      funext f
      congr 1
      funext readers
      rw [forget_mapError _ w.leave fun _ => rfl, forget_writeChunks]
  · unfold RawLazWriter.writeDefaultLeft RawLazWriter.writeDefault
    split
    · rfl
    · simp only [forget_bind, forget_leaving, forget_pure]
      congr 1
      funext f
      rw [forget_mapError _ w.leave fun _ => rfl, forget_writeChunks]

end

/-! ## Where the loops stop -/

theorem writesPoints_left {σ : Type} {n : Nat} {t : Transforms} {counting : ReturnCounts → Point → ReturnCounts}
    {point : Nat → PointState → Out PointState} {ps good rest : List Point} {p : Point} {At : Nat → Bytes → Prop}
    (h : WritesPoints n t counting point ps At) (hps : ps = good ++ p :: rest) {recs : List Bytes}
    (hrec : Stored n t good recs) (hp : storedRecord n t p = none) (st : PointState)
    (ht : st.header.transforms = t) (h0 : At 0 st.cursor) (hin : st.out.pos ≤ st.out.data.length) (g : Stream → σ) :
    (List.range ps.length).foldlM (fun ps i => leaving (g ps.out, ps.header) (point i ps)) st =
      .error (.panic, g (st.out.write recs.flatten), boundedBy st.header good) := by
  have hlen : recs.length = good.length := mapM_length hrec
  have hpl : ps.length = good.length + (rest.length + 1) := by rw [hps]; simp
  rw [List.range_eq_range']
  obtain ⟨e, h1, h2⟩ := leftLoop_refuse (f := fun ps i => leaving (g ps.out, ps.header) (point i ps))
    (P := fun k s => At k s.cursor ∧ s.out = st.out.write (recs.take k).flatten ∧
      s.header = boundedBy st.header (good.take k))
    (Q := fun e => e = (g (st.out.write recs.flatten), boundedBy st.header good)) ps.length 0 st good.length
    ⟨h0, by simp [write_nil hin], by simp [boundedBy]⟩ (Nat.zero_le _) (by omega)
    (by
      rintro k ⟨c, o, hd, cs⟩ _ hk ⟨e1, e2, e3⟩
      simp only at e1 e2 e3
      subst e2 e3
      have hg : good[k]? = some good[k] := List.getElem?_eq_getElem hk
      have hpk : ps[k]? = some good[k] := by rw [hps, List.getElem?_append_left hk]; exact hg
      obtain ⟨rec, hr1, hr2⟩ := mapM_getElem hrec hg
      obtain ⟨c', h5, h6⟩ := h.step k good[k] rec ⟨c, st.out.write (recs.take k).flatten, boundedBy st.header (good.take k), cs⟩ hpk hr2 (by
        show (boundedBy st.header (good.take k)).transforms = t
        rw [boundedBy_fields]; exact ht) e1
      refine ⟨_, congrArg (leaving _) h6, h5, ?_, ?_⟩
      · rw [List.take_add_one, hr1]
        simp only [Option.toList_some, List.flatten_append, List.flatten_cons, List.flatten_nil, List.append_nil]
        exact write_write hin _ _
      · rw [List.take_add_one, hg, boundedBy_append]
        rfl)
    (by
      rintro ⟨c, o, hd, cs⟩ ⟨e1, e2, e3⟩
      simp only at e1 e2 e3
      rw [List.take_of_length_le (by omega)] at e2 e3
      subst e2 e3
      have hpk : ps[good.length]? = some p := by rw [hps]; simp
      have := h.refuse good.length p ⟨c, st.out.write recs.flatten, boundedBy st.header good, cs⟩ hpk hp (by
        show (boundedBy st.header good).transforms = t
        rw [boundedBy_fields]; exact ht) e1
      exact ⟨_, by rw [this]; rfl, rfl⟩)
  rw [h1, h2]

theorem writeChunk_left {β σ : Type} [BorrowedBuffer β] {b : β} {l : PointLayout} {qs : List Point}
    (hb : ShowsPoints b l qs) {n : Nat} {t : Transforms} {counting : ReturnCounts → Point → ReturnCounts}
    {point : Nat → PointState → Out PointState} (hp : PointOk n t l counting point) (sink : Sink σ)
    (leave : σ → Stream → σ) (st : ChunkState σ) (ht : st.header.transforms = t)
    (hc : st.chunk.length = chunkPoints * l.size)
    (hs : (sink.start st.out).pos ≤ (sink.start st.out).data.length) (k : Nat) (hk : k * chunkPoints ≤ qs.length)
    {good rest : List Point} {p : Point} (hsplit : chunkOf qs k = good ++ p :: rest) {recs : List Bytes}
    (hrec : Stored n t good recs) (hno : storedRecord n t p = none) :
    writeChunkLeft b l.size sink leave point st k =
      .error (.panic, leave st.out ((sink.start st.out).write recs.flatten), boundedBy st.header good) := by
  have hlen : len b = qs.length := hb.len_eq
  have hn : (chunkOf qs k).length = min chunkPoints (qs.length - k * chunkPoints) := chunkOf_length qs k
  generalize hN : (chunkOf qs k).length = N at hn
  have hNle : N * l.size ≤ st.chunk.length := by
    rw [hc]; exact Nat.mul_le_mul_right _ (by omega)
  obtain ⟨r, h1, h2, h3⟩ := hb.getPointRange_ok (k * chunkPoints) (k * chunkPoints + N) (st.chunk.take (N * l.size))
    (by omega) (by omega) (by rw [List.length_take]; rw [show k * chunkPoints + N - k * chunkPoints = N by omega]; omega)
  rw [show k * chunkPoints + N - k * chunkPoints = N by omega] at h2 h3
  have hpart : (qs.drop (k * chunkPoints)).take N = chunkOf qs k := by
    unfold chunkOf
    rw [hn, List.take_eq_take_iff]
    simp
  rw [hpart] at h3
  have hput : put st.chunk 0 r = (recordsOf l.size N r).flatten ++ st.chunk.drop r.length := by
    rw [flatten_recordsOf h2]
    unfold put
    simp
  obtain ⟨At, hw, h0⟩ := hp (recordsOf l.size N r) (st.chunk.drop r.length) (recordsOf_allLen h2)
  rw [h3] at hw
  rw [← hput] at h0
  have hloop := writesPoints_left hw hsplit hrec hno ⟨put st.chunk 0 r, sink.start st.out, st.header, st.counts⟩ ht h0 hs
    (leave st.out)
  unfold writeChunkLeft
  rw [hlen, ← hn]
  show (leaving _ (sliceGet st.chunk 0 (N * l.size))).bind _ = _
  rw [sliceGet_prefix hNle]
  show (leaving _ (getPointRange b ⟨k * chunkPoints, k * chunkPoints + N⟩ (st.chunk.take (N * l.size)))).bind _ = _
  rw [h1]
  show Except.bind ((List.range N).foldlM (fun ps i => leaving (leave st.out ps.out, ps.header) (point i ps))
    (⟨put st.chunk 0 r, sink.start st.out, st.header, st.counts⟩ : PointState)) _ = _
  rw [← hN, hloop]
  rfl

/-- The first point that cannot be stored. -/
theorem writeChunks_left {β σ : Type} [BorrowedBuffer β] {b : β} {l : PointLayout} {qs good rest : List Point} {p : Point}
    (hb : ShowsPoints b l qs) (hsplit : qs = good ++ p :: rest) {n : Nat} {t : Transforms}
    {counting : ReturnCounts → Point → ReturnCounts}
    {point : Nat → PointState → Out PointState} (hp : PointOk n t l counting point) (sink : Sink σ)
    (leave : σ → Stream → σ) (out : σ) (header : LasHeader) (ht : header.transforms = t) {recs : List Bytes}
    (hrec : Stored n t good recs) (hno : storedRecord n t p = none)
    (P : Nat → σ → Prop) (h0 : P 0 out)
    (hstart : ∀ k s, P k s → (sink.start s).pos ≤ (sink.start s).data.length)
    (hstep : ∀ k s, (k + 1) * chunkPoints ≤ good.length → P k s →
      ∃ s', sink.finish s chunkPoints ((sink.start s).write (chunkOf recs k).flatten) = .ok s' ∧ P (k + 1) s') :
    ∃ s, P (good.length / chunkPoints) s ∧
      writeChunksLeft b l.size sink leave point out header =
        .error (.panic, leave s ((sink.start s).write (recs.drop (good.length / chunkPoints * chunkPoints)).flatten),
          boundedBy header good) := by
  have hpos := chunkPoints_pos
  have hlen : len b = qs.length := hb.len_eq
  have hql : qs.length = good.length + (rest.length + 1) := by rw [hsplit]; simp
  have hrl : recs.length = good.length := mapM_length hrec
  have hdm := Nat.div_add_mod good.length chunkPoints
  have hml := Nat.mod_lt good.length hpos
  rw [Nat.mul_comm] at hdm
  generalize hK : good.length / chunkPoints = K at hdm ⊢
  have hchunk : ∀ k, (k + 1) * chunkPoints ≤ good.length → chunkOf qs k = chunkOf good k ∧ (chunkOf good k).length = chunkPoints := by
    intro k hk
    rw [Nat.succ_mul] at hk
    refine ⟨?_, by rw [chunkOf_length]; omega⟩
    unfold chunkOf
    rw [hsplit, List.drop_append_of_le_length (by omega), List.take_append_of_le_length (by rw [List.length_drop]; omega)]
  have hlast : chunkOf qs K = good.drop (K * chunkPoints) ++ p :: rest.take (chunkPoints - good.length % chunkPoints - 1) := by
    unfold chunkOf
    rw [hsplit, List.drop_append_of_le_length (by omega), List.take_append, List.length_drop,
      List.take_of_length_le (by rw [List.length_drop]; omega)]
    congr 1
    rw [show chunkPoints - (good.length - K * chunkPoints) = (chunkPoints - good.length % chunkPoints - 1) + 1 by omega,
      List.take_succ_cons]
  have hKlt : K < (qs.length + (chunkPoints - 1)) / chunkPoints := by
    rw [← Nat.add_sub_assoc hpos, chunk_lt hpos]
    omega
  unfold writeChunksLeft
  rw [hlen]
  show ∃ s, P K s ∧ Except.bind (List.foldlM (m := Left (σ × LasHeader)) (writeChunkLeft b l.size sink leave point)
    ⟨out, header, ReturnCounts.empty, zeros (chunkPoints * l.size)⟩
    (List.range ((qs.length + (chunkPoints - 1)) / chunkPoints))) _ = _
  rw [List.range_eq_range']
  obtain ⟨e, h1, s, h2, h3⟩ := leftLoop_refuse (f := writeChunkLeft b l.size sink leave point)
    (P := fun k (st : ChunkState σ) => P k st.out ∧ st.header = boundedBy header (good.take (k * chunkPoints)) ∧
      st.chunk.length = chunkPoints * l.size)
    (Q := fun e => ∃ s, P K s ∧ e = (leave s ((sink.start s).write (recs.drop (K * chunkPoints)).flatten),
      boundedBy header good))
    ((qs.length + (chunkPoints - 1)) / chunkPoints) 0
    ⟨out, header, ReturnCounts.empty, zeros (chunkPoints * l.size)⟩ K
    ⟨h0, by simp [boundedBy], by simp [zeros]⟩ (Nat.zero_le _) (by omega)
    (by
      intro k st _ hk ⟨e1, e2, e3⟩
      have hkg : (k + 1) * chunkPoints ≤ good.length := by
        have : (k + 1) * chunkPoints ≤ K * chunkPoints := Nat.mul_le_mul_right chunkPoints hk
        omega
      obtain ⟨c1, c2⟩ := hchunk k hkg
      obtain ⟨chunk, e5, e6⟩ := writeChunk_eq hb hp sink st (by rw [e2, boundedBy_fields]; exact ht) e3
        (hstart k _ e1) k (by rw [Nat.succ_mul] at hkg; omega)
        (recs := chunkOf recs k) (by rw [c1]; exact stored_drop_take hrec (k * chunkPoints) chunkPoints)
      obtain ⟨s', e7, e8⟩ := hstep k st.out hkg e1
      rw [c1, c2, e7] at e6
      refine ⟨_, of_forget ((forget_writeChunk ..).trans e6), e8, ?_, e5⟩
      show boundedBy st.header (chunkOf good k) = _
      rw [e2, ← boundedBy_append, take_chunks])
    (by
      intro st ⟨e1, e2, e3⟩
      have hst := stored_drop_take hrec (K * chunkPoints) good.length
      rw [List.take_of_length_le (by rw [List.length_drop]; omega),
        List.take_of_length_le (by rw [List.length_drop]; omega)] at hst
      have := writeChunk_left hb hp sink leave st (by rw [e2, boundedBy_fields]; exact ht) e3 (hstart K _ e1) K
        (by omega) hlast hst hno
      refine ⟨_, this, st.out, e1, ?_⟩
      rw [e2, ← boundedBy_append, List.take_append_drop])
  rw [h1, h3]
  exact ⟨s, h2, rfl⟩

/-! ## What is left -/

/-- Readers for the layout of a point that can be stored. -/
theorem batch_readers_one {n : Nat} {f : Format} (hf : Format.new n = .ok f) {t : Transforms} (b : Batch)
    {p : Point} (hp : p ∈ b.points) {rec : Bytes} (hrec : storedRecord n t p = some rec) :
    ∃ readers, attributeReaders b.layout f = .ok readers ∧
      PointOk n t b.layout countNothing (writeCustomPoint f readers) := by
  obtain ⟨i, hi⟩ := List.mem_iff_getElem?.1 hp
  obtain ⟨r, _, h1, h2⟩ := b.shows.getPoint_ok i p (zeros b.layout.size) hi (by simp [zeros])
  obtain ⟨readers, h3, h4⟩ := attributeReaders_spec (f := f) b.solid (r0 := r) fun d hd => by
    rw [h2]; exact storedRecord_values hf hrec hd
  exact ⟨readers, h3, fun rs rest hall => ⟨_, custom_writes hf t h4 hall rest, rfl⟩⟩

/-- What a LAS writer is left with by a batch it refuses: the records of the points before the first one that cannot be
    stored. -/
theorem las_left {n : Nat} {f : Format} (hf : Format.new n = .ok f) {w : RawLasWriter}
    (hd : DefaultFor f w.defaultLayout) (hfm : w.header.format % 64 = n) (hpos : w.writer.pos ≤ w.writer.data.length)
    (b : Batch) {good rest : List Point} {p : Point} (hsplit : b.points = good ++ p :: rest) {recs : List Bytes}
    (hrec : Stored n w.header.transforms good recs) (hno : storedRecord n w.header.transforms p = none) :
    w.writeLeft b.buffer =
      .error (.panic, { w with writer := w.writer.write recs.flatten, header := boundedBy w.header good }) := by
  have h0 : b.points ≠ [] := by rw [hsplit]; simp
  have hl0 : ¬ len b.buffer = 0 := by
    rw [batch_len]; intro e; exact h0 (List.eq_nil_of_length_eq_zero e)
  have hrl : recs.length = good.length := mapM_length hrec
  have run : ∀ {counting point}, PointOk n w.header.transforms b.layout counting point →
      writeChunksLeft b.buffer b.layout.size RawLasWriter.sink (fun _ s => s) point w.writer w.header =
        .error (.panic, w.writer.write recs.flatten, boundedBy w.header good) := by
    intro counting point hp
    obtain ⟨s, h1, h2⟩ := writeChunks_left b.shows hsplit hp RawLasWriter.sink (fun _ s => s) w.writer w.header rfl hrec hno
      (P := fun k s => s = w.writer.write (recs.take (k * chunkPoints)).flatten) (by simp [write_nil hpos])
      (by intro k s e; rw [e]; exact write_inside hpos _)
      (by
        intro k s _ e
        refine ⟨_, rfl, ?_⟩
        show s.write _ = _
        rw [e, write_write hpos, take_chunks, List.flatten_append])
    rw [h2, h1]
    show Except.error (_, (w.writer.write _).write _, _) = _
    rw [write_write hpos, ← List.flatten_append, List.take_append_drop]
  unfold RawLasWriter.writeLeft
  by_cases hlay : b.layout = w.defaultLayout
  · have hsol : Solid w.defaultLayout := hlay ▸ b.solid
    rw [if_pos (by rw [batch_layout]; exact hlay)]
    unfold RawLasWriter.writeDefaultLeft
    rw [if_neg hl0, hfm, hf]
    show ((writeChunksLeft b.buffer w.defaultLayout.size _ _ _ _ w.header).mapError _).bind _ = _
    rw [show w.defaultLayout.size = b.layout.size by rw [hlay], run (hlay ▸ default_pointOk hf w.header.transforms hd hsol)]
    rfl
  · rw [if_neg (by rw [batch_layout]; exact hlay)]
    unfold RawLasWriter.writeCustomLeft
    rw [if_neg hl0, hfm, hf]
    show (leaving w (attributeReaders (BorrowedBuffer.layout b.buffer) f)).bind _ = _
    rw [batch_layout]
    have go : ∀ readers, attributeReaders b.layout f = .ok readers →
        PointOk n w.header.transforms b.layout countNothing (writeCustomPoint f readers) →
        (leaving w (attributeReaders b.layout f)).bind (fun readers =>
          ((writeChunksLeft b.buffer b.layout.size RawLasWriter.sink (fun _ s => s) (writeCustomPoint f readers) w.writer
            w.header).mapError w.leave).bind fun x =>
              .ok { w with writer := x.1, header := x.2, requiresFlush := true }) =
          .error (.panic, { w with writer := w.writer.write recs.flatten, header := boundedBy w.header good }) := by
      intro readers r1 r2
      rw [r1]
      show ((writeChunksLeft b.buffer b.layout.size _ _ _ _ w.header).mapError _).bind _ = _
      rw [run r2]
      rfl
    rcases batch_readers_or hf w.header.transforms b h0 with ⟨readers, r1, r2⟩ | r1
    · exact go readers r1 r2
    · cases good with
      | cons g gs =>
        obtain ⟨rec, _, hr⟩ := mapM_getElem hrec (i := 0) rfl
        obtain ⟨readers, r2, _⟩ := batch_readers_one hf b (p := g) (by rw [hsplit]; simp) hr
        rw [r1] at r2
        cases r2
      | nil =>
        obtain rfl : recs = [] := List.eq_nil_of_length_eq_zero hrl
        rw [r1]
        show Except.error (Fault.panic, w) = _
        rw [List.flatten_nil, write_nil hpos]
        rfl

/-- What a LAZ writer is left with by a batch it refuses: the records of the whole chunks before the first point that cannot
    be stored. -/
theorem laz_left {n : Nat} {f : Format} (hf : Format.new n = .ok f) {w : RawLazWriter}
    (hd : DefaultFor f w.defaultLayout) (hfm : w.header.format % 64 = n) (hrl : w.header.recordLength = lasRecordLength n)
    (b : Batch) {good rest : List Point} {p : Point} (hsplit : b.points = good ++ p :: rest) {recs : List Bytes}
    (hrec : Stored n w.header.transforms good recs) (hno : storedRecord n w.header.transforms p = none) :
    w.writeLeft b.buffer = .error (.panic, { w with
      handed := w.handed ++ (recs.take (good.length / chunkPoints * chunkPoints)).flatten
      header := boundedBy w.header good }) := by
  have hn := (itemsOf_eq hf).2
  have h0 : b.points ≠ [] := by rw [hsplit]; simp
  have hl0 : ¬ len b.buffer = 0 := by
    rw [batch_len]; intro e; exact h0 (List.eq_nil_of_length_eq_zero e)
  have hlen : recs.length = good.length := mapM_length hrec
  have hall := stored_allLen hn (fun q hq => batch_sized b q (by rw [hsplit]; simp [hq])) hrec
  have run : ∀ {counting point} (points : Nat → Nat), points chunkPoints = chunkPoints →
      PointOk n w.header.transforms b.layout counting point →
      ∃ buffer, writeChunksLeft b.buffer b.layout.size (RawLazWriter.sink (lasRecordLength n) points) (fun s _ => s) point
        ⟨w.handed, zeros (chunkPoints * lasRecordLength n)⟩ w.header =
        .error (.panic, ⟨w.handed ++ (recs.take (good.length / chunkPoints * chunkPoints)).flatten, buffer⟩,
          boundedBy w.header good) := by
    intro counting point points hpts hp
    obtain ⟨s, ⟨h1, _⟩, h2⟩ := writeChunks_left b.shows hsplit hp (RawLazWriter.sink (lasRecordLength n) points)
      (fun s _ => s) ⟨w.handed, zeros (chunkPoints * lasRecordLength n)⟩ w.header rfl hrec hno
      (P := fun k s => s.handed = w.handed ++ (recs.take (k * chunkPoints)).flatten ∧
        s.buffer.length = chunkPoints * lasRecordLength n) (by simp [zeros])
      (by intro k s _; exact Nat.zero_le _)
      (by
        rintro k s hk ⟨e1, e2⟩
        have hsub : AllLen (lasRecordLength n) (chunkOf recs k) := fun r hr =>
          hall r (List.mem_of_mem_drop (List.mem_of_mem_take hr))
        have hcl : (chunkOf recs k).length = chunkPoints := by
          rw [Nat.succ_mul] at hk
          rw [chunkOf_length, hlen]
          omega
        have hfl := hsub.flatten_length
        rw [hcl] at hfl
        have hw : ((⟨s.buffer, 0⟩ : Stream).write (chunkOf recs k).flatten).data = (chunkOf recs k).flatten := by
          have := write_at_end (a := []) (b := (chunkOf recs k).flatten) (t := s.buffer)
          rw [List.nil_append] at this
          rw [show (⟨s.buffer, 0⟩ : Stream) = ⟨s.buffer, ([] : Bytes).length⟩ from rfl, this]
          rw [List.drop_eq_nil_of_le (by omega)]
          simp
        refine ⟨⟨s.handed ++ (chunkOf recs k).flatten, (chunkOf recs k).flatten⟩, ?_, ?_, hfl⟩
        · show (sliceGet ((⟨s.buffer, 0⟩ : Stream).write (chunkOf recs k).flatten).data 0
            (points chunkPoints * lasRecordLength n)).bind _ = _
          rw [hpts, hw, ← hfl, sliceGet_prefix (Nat.le_refl _), List.take_length]
          show Except.ok (⟨_, ((⟨s.buffer, 0⟩ : Stream).write (chunkOf recs k).flatten).data⟩ : LazSink) = _
          rw [hw]
        · show s.handed ++ _ = _
          rw [e1, take_chunks, List.flatten_append, List.append_assoc])
    obtain ⟨hd, bf⟩ := s
    simp only at h1
    subst h1
    exact ⟨bf, h2⟩
  unfold RawLazWriter.writeLeft
  by_cases hlay : b.layout = w.defaultLayout
  · have hsol : Solid w.defaultLayout := hlay ▸ b.solid
    rw [if_neg (not_not.2 (by rw [batch_layout]; exact hlay))]
    unfold RawLazWriter.writeDefaultLeft
    rw [if_neg hl0, hfm, hf]
    show ((writeChunksLeft b.buffer w.defaultLayout.size _ _ _ _ w.header).mapError _).bind _ = _
    obtain ⟨bf, hrun⟩ := run id rfl (hlay ▸ default_pointOk hf w.header.transforms hd hsol)
    rw [show w.defaultLayout.size = b.layout.size by rw [hlay], hrl, hrun]
    rfl
  · rw [if_pos (by rw [batch_layout]; exact hlay)]
    unfold RawLazWriter.writeCustomLeft
    rw [if_neg hl0, hfm, hf]
    show (leaving w (attributeReaders (BorrowedBuffer.layout b.buffer) f)).bind _ = _
    rw [batch_layout]
    rcases batch_readers_or hf w.header.transforms b h0 with ⟨readers, r1, r2⟩ | r1
    · rw [r1]
      show ((writeChunksLeft b.buffer b.layout.size _ _ _ _ w.header).mapError _).bind _ = _
      obtain ⟨bf, hrun⟩ := run (fun _ => chunkPoints) rfl r2
      rw [hrl, hrun]
      rfl
    · cases good with
      | cons g gs =>
        obtain ⟨rec, _, hr⟩ := mapM_getElem hrec (i := 0) rfl
        obtain ⟨readers, r2, _⟩ := batch_readers_one hf b (p := g) (by rw [hsplit]; simp) hr
        rw [r1] at r2
        cases r2
      | nil =>
        obtain rfl : recs = [] := List.eq_nil_of_length_eq_zero hlen
        rw [r1]
        show Except.error (Fault.panic, w) = _
        rw [List.take_nil, List.flatten_nil, List.append_nil]
        rfl

end Las

end Pasture
