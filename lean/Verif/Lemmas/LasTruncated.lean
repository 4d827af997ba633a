import Verif.Spec.LasTruncated
import Verif.Props.LasReader

/-!
# Reading from a stream and from the same stream cut off
-/

namespace Pasture.Las

open Spec BorrowedBuffer

theorem bind_parts {α γ : Type} {x : Out α} {g : α → Out γ} {c : γ} (h : (x >>= g) = .ok c) :
    ∃ a, x = .ok a ∧ g a = .ok c := by
  cases x with
  | error e => cases h
  | ok a => exact ⟨a, rfl, h⟩

/-- What the proofs need of a stream that can be cut off. -/
class LawfulCut (σ : Type) [RecordSource σ] [Truncates σ] where
  pos : σ → Nat
  fill_cut : ∀ (k : Nat) (s : σ) (old new : Bytes), RecordSource.fill s old = .ok new →
    pos s ≤ pos (RecordSource.advance s old.length) ∧
    (pos (RecordSource.advance s old.length) ≤ k ∨ pos (RecordSource.advance s old.length) = pos s →
      RecordSource.fill (Truncates.cut k s) old = .ok new) ∧
    (k < pos (RecordSource.advance s old.length) → pos s < pos (RecordSource.advance s old.length) →
      RecordSource.fill (Truncates.cut k s) old = .error .err)
  advance_cut : ∀ (k : Nat) (s : σ) (n : Nat),
    RecordSource.advance (Truncates.cut k s) n = Truncates.cut k (RecordSource.advance s n)
  seek_cut : ∀ (k : Nat) (s : σ) (off sz i : Nat),
    RecordSource.toRecord off sz (Truncates.cut k s) i = Truncates.cut k (RecordSource.toRecord off sz s i)

instance cutStream : LawfulCut Stream where
  pos := Stream.pos
  fill_cut := by
    intro k s old new h
    change (if old.length = 0 ∨ s.pos + old.length ≤ s.data.length then
      Except.ok ((s.data.drop s.pos).take old.length) else _) = _ at h
    show s.pos ≤ s.pos + old.length ∧ (s.pos + old.length ≤ k ∨ s.pos + old.length = s.pos →
        (if old.length = 0 ∨ s.pos + old.length ≤ (s.data.take k).length then
          Except.ok (((s.data.take k).drop s.pos).take old.length) else _) = _) ∧
      (k < s.pos + old.length → s.pos < s.pos + old.length →
        (if old.length = 0 ∨ s.pos + old.length ≤ (s.data.take k).length then
          Except.ok (((s.data.take k).drop s.pos).take old.length) else _) = _)
    rw [List.length_take]
    refine ⟨by omega, ?_, ?_⟩
    · intro hk
      by_cases h0 : old.length = 0
      · rw [if_pos (.inl h0)] at h ⊢
        rw [← h, h0, List.take_zero, List.take_zero]
      · by_cases h1 : s.pos + old.length ≤ s.data.length
        · rw [if_pos (.inr h1)] at h
          rw [if_pos (by omega), ← h, List.drop_take, List.take_take, Nat.min_eq_left (by omega)]
        · rw [if_neg (by omega)] at h
          cases h
    · intro h1 h2
      rw [if_neg (by omega)]
  advance_cut := fun _ _ _ => rfl
  seek_cut := fun _ _ _ _ _ => rfl

instance cutLazStream : LawfulCut LazStream where
  pos := LazStream.next
  fill_cut := by
    intro k s old new h
    change (if old.length / s.itemSize = 0 ∨ s.next + old.length / s.itemSize ≤ s.records.length then
      Except.ok (put old 0 ((s.records.drop s.next).take (old.length / s.itemSize)).flatten) else _) = _ at h
    show s.next ≤ s.next + old.length / s.itemSize ∧
      (s.next + old.length / s.itemSize ≤ k ∨ s.next + old.length / s.itemSize = s.next →
        (if old.length / s.itemSize = 0 ∨ s.next + old.length / s.itemSize ≤ (s.records.take k).length then
          Except.ok (put old 0 (((s.records.take k).drop s.next).take (old.length / s.itemSize)).flatten) else _) = _) ∧
      (k < s.next + old.length / s.itemSize → s.next < s.next + old.length / s.itemSize →
        (if old.length / s.itemSize = 0 ∨ s.next + old.length / s.itemSize ≤ (s.records.take k).length then
          Except.ok (put old 0 (((s.records.take k).drop s.next).take (old.length / s.itemSize)).flatten) else _) = _)
    rw [List.length_take]
    generalize old.length / s.itemSize = n at h ⊢
    refine ⟨by omega, ?_, ?_⟩
    · intro hk
      by_cases h0 : n = 0
      · rw [if_pos (.inl h0)] at h ⊢
        rw [← h, h0, List.take_zero, List.take_zero]
      · by_cases h1 : s.next + n ≤ s.records.length
        · rw [if_pos (.inr h1)] at h
          rw [if_pos (by omega), ← h, List.drop_take, List.take_take, Nat.min_eq_left (by omega)]
        · rw [if_neg (by omega)] at h
          cases h
    · intro h1 h2
      rw [if_neg (by omega)]
  advance_cut := fun _ _ _ => rfl
  seek_cut := fun _ _ _ _ _ => rfl

section
variable {σ : Type} [RecordSource σ] [Truncates σ] [LawfulCut σ]

/-- The step `f` behaves on cut streams as on the whole ones, up to errors for what is missing. -/
def CutStep {S : Type} (k : Nat) (pos : S → Nat) (cut : S → S) (f : S → Out S) : Prop :=
  ∀ s t, f s = .ok t → pos s ≤ pos t ∧ (pos t ≤ k ∨ pos t = pos s → f (cut s) = .ok (cut t)) ∧
    (k < pos t → pos s < pos t → f (cut s) = .error .err)

theorem cutStep_loop {S α : Type} {k : Nat} {pos : S → Nat} {cut : S → S} {f : S → α → Out S}
    (h : ∀ a, CutStep k pos cut (f · a)) : ∀ xs : List α, CutStep k pos cut (forLoop xs · f)
  | [] => by
    intro s t hs
    have : s = t := Except.ok.inj hs
    subst this
    exact ⟨Nat.le_refl _, fun _ => rfl, fun _ h => absurd h (Nat.lt_irrefl _)⟩
  | a :: xs => by
    intro s t hs
    obtain ⟨s₁, h1, h2⟩ := forLoop_cons_ok.1 hs
    obtain ⟨a1, a2, a3⟩ := h a s s₁ h1
    obtain ⟨b1, b2, b3⟩ := cutStep_loop h xs s₁ t h2
    refine ⟨by omega, ?_, ?_⟩
    · intro hk
      show forLoop (a :: xs) (cut s) f = _
      exact forLoop_cons_ok.2 ⟨_, a2 (by omega), b2 (by omega)⟩
    · intro h3 h4
      show forLoop (a :: xs) (cut s) f = _
      rw [forLoop_cons]
      by_cases h5 : pos s₁ ≤ k ∨ pos s₁ = pos s
      · rw [show f (cut s) a = _ from a2 h5]
        exact b3 h3 (by omega)
      · rw [show f (cut s) a = _ from a3 (by omega) (by omega)]
        rfl

/-- What reading needs of a buffer it reads contiguous records into. -/
class CutTarget (β : Type) [BorrowedMutBuffer β] [AsMemoryMut β] : Prop where
  range : ∀ i, AsMemoryMut.asInterleavedMut (β := β) = some i → ∀ {b b' : β} {n : Nat} {f : Bytes → Out Bytes},
    i.getPointRangeMut b ⟨0, n⟩ f = .ok b' → ∃ old new, f old = .ok new ∧
      old.length = n * (i.toInterleavedBuffer.toBorrowedBuffer.layout b').size ∧
      ∀ g : Bytes → Out Bytes, (g old = .ok new → i.getPointRangeMut b ⟨0, n⟩ g = .ok b') ∧
        (g old = .error .err → i.getPointRangeMut b ⟨0, n⟩ g = .error .err)

theorem readChunk_cut {β : Type} [BorrowedMutBuffer β] {k : Nat} (size per chunks n j : Nat) :
    CutStep k (fun s : σ × β => LawfulCut.pos s.1) (fun s => (Truncates.cut k s.1, s.2))
      (RawReader.readChunk size per chunks n · j) := by
  rintro ⟨s, b⟩ ⟨s', b'⟩ h
  simp only [RawReader.readChunk] at h ⊢
  generalize (if j = chunks - 1 then (n - j * per) * size else per * size) = q at h ⊢
  obtain ⟨old, e1, h⟩ := bind_parts h
  obtain ⟨new, e2, h⟩ := bind_parts h
  obtain ⟨b₁, e3, h⟩ := bind_parts h
  obtain ⟨rfl, rfl⟩ : _ = s' ∧ b₁ = b' := by
    have := Except.ok.inj h
    simpa using this
  have hq : old.length = q := by
    unfold sliceGet at e1
    split at e1
    · next hle =>
      rw [← Except.ok.inj e1]
      simp only [List.length_take, List.length_drop]
      omega
    · cases e1
  obtain ⟨f1, f2, f3⟩ := LawfulCut.fill_cut k s old new e2
  rw [hq] at f1 f2 f3
  rw [e1]
  refine ⟨f1, fun hk => ?_, fun h1 h2 => ?_⟩
  · show (RecordSource.fill (Truncates.cut k s) old).bind _ = _
    rw [f2 hk]
    show (BorrowedMutBuffer.setPointRange b _ new).bind _ = _
    rw [e3]
    show Except.ok (RecordSource.advance (Truncates.cut k s) q, b₁) = _
    rw [LawfulCut.advance_cut]
  · show (RecordSource.fill (Truncates.cut k s) old).bind _ = _
    rw [f3 h1 h2]
    rfl

theorem default_cut {β : Type} [BorrowedMutBuffer β] [AsMemoryMut β] [CutTarget β] {k : Nat} {r r' : RawReader σ}
    {b b' : β} {count n : Nat} (h : r.readIntoDefaultLayout b count = .ok (n, b', r')) :
    LawfulCut.pos r.reader ≤ LawfulCut.pos r'.reader ∧
    (LawfulCut.pos r'.reader ≤ k ∨ LawfulCut.pos r'.reader = LawfulCut.pos r.reader →
      (r.cut k).readIntoDefaultLayout b count = .ok (n, b', r'.cut k)) ∧
    (k < LawfulCut.pos r'.reader → LawfulCut.pos r.reader < LawfulCut.pos r'.reader →
      (r.cut k).readIntoDefaultLayout b count = .error .err) := by
  unfold RawReader.readIntoDefaultLayout at h ⊢
  have hrem : (r.cut k).remainingPoints = r.remainingPoints := rfl
  have hsize : (r.cut k).sizeOfPoint = r.sizeOfPoint := rfl
  simp only [hrem, hsize]
  generalize min count r.remainingPoints = m at h ⊢
  by_cases h0 : m = 0
  · simp only [if_pos h0] at h ⊢
    obtain ⟨rfl, rfl, rfl⟩ : 0 = n ∧ b = b' ∧ r = r' := by
      have := Except.ok.inj h
      simpa using this
    exact ⟨Nat.le_refl _, fun _ => rfl, fun _ h => absurd h (Nat.lt_irrefl _)⟩
  · simp only [if_neg h0] at h ⊢
    cases hi : AsMemoryMut.asInterleavedMut (β := β) with
    | some i =>
      simp only [hi] at h ⊢
      obtain ⟨b₁, hg, h⟩ := bind_parts h
      obtain ⟨rfl, rfl, rfl⟩ : m = n ∧ b₁ = b' ∧ _ = r' := by
        have := Except.ok.inj h
        simpa using this
      obtain ⟨old, new, g1, g2, g3⟩ := CutTarget.range i hi hg
      obtain ⟨f1, f2, f3⟩ := LawfulCut.fill_cut k r.reader old new g1
      rw [g2] at f1 f2 f3
      refine ⟨f1, fun hk => ?_, fun h1 h2 => ?_⟩
      · show (InterleavedBufferMut.getPointRangeMut b ⟨0, m⟩ (RecordSource.fill (Truncates.cut k r.reader))).bind _ = _
        rw [(g3 _).1 (f2 hk)]
        show Except.ok (m, b₁, RawReader.mk (RecordSource.advance (Truncates.cut k r.reader) _) _ _ _ _ _ _ _) = _
        rw [LawfulCut.advance_cut]
        rfl
      · show (InterleavedBufferMut.getPointRangeMut b ⟨0, m⟩ (RecordSource.fill (Truncates.cut k r.reader))).bind _ = _
        rw [(g3 _).2 (f3 h1 h2)]
        rfl
    | none =>
      simp only [hi] at h ⊢
      obtain ⟨_, e1, h⟩ := bind_parts h
      obtain ⟨_, e2, h⟩ := bind_parts h
      obtain ⟨⟨s₁, b₁⟩, e3, h⟩ := bind_parts h
      obtain ⟨rfl, rfl, rfl⟩ : m = n ∧ b₁ = b' ∧ _ = r' := by
        have := Except.ok.inj h
        simpa using this
      obtain ⟨l1, l2, l3⟩ := cutStep_loop (readChunk_cut (β := β) (k := k) r.sizeOfPoint (2 ^ 20 / r.sizeOfPoint)
        ((m + 2 ^ 20 / r.sizeOfPoint - 1) / (2 ^ 20 / r.sizeOfPoint)) m) _ (r.reader, b) (s₁, b₁) e3
      refine ⟨l1, fun hk => ?_, fun h1 h2 => ?_⟩
      · show (assertThat _).bind _ = _
        rw [e1]
        show (assertThat _).bind _ = _
        rw [e2]
        show (forLoop _ (Truncates.cut k r.reader, b) _).bind _ = _
        rw [show forLoop _ (Truncates.cut k r.reader, b) _ = _ from l2 hk]
        rfl
      · show (assertThat _).bind _ = _
        rw [e1]
        show (assertThat _).bind _ = _
        rw [e2]
        show (forLoop _ (Truncates.cut k r.reader, b) _).bind _ = _
        rw [show forLoop _ (Truncates.cut k r.reader, b) _ = _ from l3 h1 h2]
        rfl

theorem convertChunk_cut {β : Type} [BorrowedMutBuffer β] [AsMemoryMut β] [CutTarget VectorBuffer] {k : Nat}
    (conv : BufferLayoutConverter) (size chunks n j : Nat) :
    CutStep k (fun s : RawReader σ × VectorBuffer × β => LawfulCut.pos s.1.reader) (fun s => (s.1.cut k, s.2))
      (RawReader.convertChunk conv size chunks n · j) := by
  rintro ⟨r, scr, b⟩ ⟨r', scr', b'⟩ h
  simp only [RawReader.convertChunk] at h ⊢
  generalize (if j = chunks - 1 then n - (chunks - 1) * size else size) = p at h ⊢
  obtain ⟨⟨q, scr₁, r₁⟩, e1, h⟩ := bind_parts h
  obtain ⟨b₁, e2, h⟩ := bind_parts h
  obtain ⟨rfl, rfl, rfl⟩ : r₁ = r' ∧ scr₁ = scr' ∧ b₁ = b' := by
    have := Except.ok.inj h
    simpa using this
  obtain ⟨d1, d2, d3⟩ := default_cut (k := k) e1
  refine ⟨d1, fun hk => ?_, fun h1 h2 => ?_⟩
  · rw [d2 hk]
    show (BufferLayoutConverter.convertIntoRange conv _ _ _ _).bind _ = _
    rw [e2]
    rfl
  · rw [d3 h1 h2]
    rfl

theorem custom_cut {β : Type} [BorrowedMutBuffer β] [AsMemoryMut β] [CutTarget VectorBuffer] {k : Nat} {r r' : RawReader σ}
    {b b' : β} {count n : Nat} (h : r.readIntoCustomLayout b count = .ok (n, b', r')) :
    LawfulCut.pos r.reader ≤ LawfulCut.pos r'.reader ∧
    (LawfulCut.pos r'.reader ≤ k ∨ LawfulCut.pos r'.reader = LawfulCut.pos r.reader →
      (r.cut k).readIntoCustomLayout b count = .ok (n, b', r'.cut k)) ∧
    (k < LawfulCut.pos r'.reader → LawfulCut.pos r.reader < LawfulCut.pos r'.reader →
      (r.cut k).readIntoCustomLayout b count = .error .err) := by
  unfold RawReader.readIntoCustomLayout at h ⊢
  have hrem : (r.cut k).remainingPoints = r.remainingPoints := rfl
  have hlay : (r.cut k).recordsLayout = r.recordsLayout := rfl
  have htr : (r.cut k).transforms = r.transforms := rfl
  simp only [hrem, hlay, htr]
  generalize min count r.remainingPoints = m at h ⊢
  by_cases h0 : m = 0
  · simp only [if_pos h0] at h ⊢
    obtain ⟨rfl, rfl, rfl⟩ : 0 = n ∧ b = b' ∧ r = r' := by
      have := Except.ok.inj h
      simpa using this
    exact ⟨Nat.le_refl _, fun _ => rfl, fun _ h => absurd h (Nat.lt_irrefl _)⟩
  · simp only [if_neg h0] at h ⊢
    obtain ⟨_, e1, h⟩ := bind_parts h
    obtain ⟨_, e2, h⟩ := bind_parts h
    obtain ⟨conv, e3, h⟩ := bind_parts h
    obtain ⟨⟨r₁, scr₁, b₁⟩, e4, h⟩ := bind_parts h
    obtain ⟨rfl, rfl, rfl⟩ : m = n ∧ b₁ = b' ∧ r₁ = r' := by
      have := Except.ok.inj h
      simpa using this
    obtain ⟨l1, l2, l3⟩ := cutStep_loop (convertChunk_cut (k := k) conv _ _ m) _ _ _ e4
    rw [e1, e2, e3]
    refine ⟨l1, fun hk => ?_, fun h1 h2 => ?_⟩
    · show (forLoop _ (r.cut k, _, b) _).bind _ = _
      rw [show forLoop _ (r.cut k, _, b) _ = _ from l2 hk]
      rfl
    · show (forLoop _ (r.cut k, _, b) _).bind _ = _
      rw [show forLoop _ (r.cut k, _, b) _ = _ from l3 h1 h2]
      rfl

theorem at_once_cut {β : Type} [BorrowedMutBuffer β] [AsMemoryMut β] [CutTarget VectorBuffer] {k : Nat} {r r' : RawReader σ}
    {b b' : β} {count n : Nat} (h : r.readIntoCustomLayoutAtOnce b count = .ok (n, b', r')) :
    LawfulCut.pos r.reader ≤ LawfulCut.pos r'.reader ∧
    (LawfulCut.pos r'.reader ≤ k ∨ LawfulCut.pos r'.reader = LawfulCut.pos r.reader →
      (r.cut k).readIntoCustomLayoutAtOnce b count = .ok (n, b', r'.cut k)) ∧
    (k < LawfulCut.pos r'.reader → LawfulCut.pos r.reader < LawfulCut.pos r'.reader →
      (r.cut k).readIntoCustomLayoutAtOnce b count = .error .err) := by
  unfold RawReader.readIntoCustomLayoutAtOnce at h ⊢
  have hrem : (r.cut k).remainingPoints = r.remainingPoints := rfl
  have hlay : (r.cut k).recordsLayout = r.recordsLayout := rfl
  have htr : (r.cut k).transforms = r.transforms := rfl
  simp only [hrem, hlay, htr]
  generalize min count r.remainingPoints = m at h ⊢
  by_cases h0 : m = 0
  · simp only [if_pos h0] at h ⊢
    obtain ⟨rfl, rfl, rfl⟩ : 0 = n ∧ b = b' ∧ r = r' := by
      have := Except.ok.inj h
      simpa using this
    exact ⟨Nat.le_refl _, fun _ => rfl, fun _ h => absurd h (Nat.lt_irrefl _)⟩
  · simp only [if_neg h0] at h ⊢
    obtain ⟨⟨q, scr, r₁⟩, e1, h⟩ := bind_parts h
    obtain ⟨conv, e2, h⟩ := bind_parts h
    obtain ⟨b₁, e3, h⟩ := bind_parts h
    obtain ⟨rfl, rfl, rfl⟩ : m = n ∧ b₁ = b' ∧ r₁ = r' := by
      have := Except.ok.inj h
      simpa using this
    obtain ⟨l1, l2, l3⟩ := default_cut (k := k) e1
    refine ⟨l1, fun hk => ?_, fun h1 h2 => ?_⟩
    · rw [l2 hk]
      show (defaultConverter _ _ _).bind _ = _
      rw [e2]
      show (BufferLayoutConverter.convertInto conv _ _).bind _ = _
      rw [e3]
      rfl
    · rw [l3 h1 h2]
      rfl

end

instance cutVector : CutTarget VectorBuffer where
  range := by
    intro i hi b b' n f h
    cases hi
    change Interleaved.update b (b.byteRangeOfPoints ⟨0, n⟩) f = .ok b' at h
    unfold Interleaved.update at h
    obtain ⟨old, h1, h⟩ := bind_parts h
    obtain ⟨new, h2, h⟩ := bind_parts h
    refine ⟨old, new, h2, ?_, fun g => ⟨fun hg => ?_, fun hg => ?_⟩⟩
    · have hl : b'.layout = b.layout := by
        unfold Interleaved.write at h
        obtain ⟨s, _, h⟩ := bind_parts h
        rw [← Except.ok.inj h]
      show old.length = n * b'.layout.size
      rw [hl]
      unfold Interleaved.read sliceGet at h1
      split at h1
      · next hle =>
        rw [← Except.ok.inj h1]
        simp only [Interleaved.byteRangeOfPoints, List.length_take, List.length_drop] at hle ⊢
        omega
      · cases h1
    · show Interleaved.update b (b.byteRangeOfPoints ⟨0, n⟩) g = _
      unfold Interleaved.update
      rw [h1]
      show (g old).bind _ = _
      rw [hg]
      exact h
    · show Interleaved.update b (b.byteRangeOfPoints ⟨0, n⟩) g = _
      unfold Interleaved.update
      rw [h1]
      show (g old).bind _ = _
      rw [hg]
      rfl

instance cutHashMap : CutTarget HashMapBuffer where
  range := by
    intro i hi
    cases hi

theorem seek_cut {σ : Type} [RecordSource σ] [Truncates σ] [LawfulCut σ] {k : Nat} {r r' : RawReader σ} {p : SeekFrom}
    {j : Nat} (h : r.seekPoint p = .ok (j, r')) : (r.cut k).seekPoint p = .ok (j, r'.cut k) := by
  have hp : (r.cut k).newPosition p = r.newPosition p := by cases p <;> rfl
  unfold RawReader.seekPoint at h ⊢
  rw [hp]
  simp only at h ⊢
  by_cases h0 : r.newPosition p < 0
  · rw [if_pos h0] at h; cases h
  · rw [if_neg h0] at h ⊢
    rw [show (r.cut k).pointCount = r.pointCount from rfl, show (r.cut k).currentPointIndex = r.currentPointIndex from rfl]
    generalize (wrapInt .u64 (min (wrapInt .i64 r.pointCount) (r.newPosition p))).toNat = c at h ⊢
    by_cases hc : r.currentPointIndex = c
    · rw [if_neg (by simpa using hc)] at h ⊢
      obtain ⟨rfl, rfl⟩ : _ = j ∧ r = r' := by
        have := Except.ok.inj h
        simpa using this
      rfl
    · rw [if_pos hc] at h ⊢
      obtain ⟨rfl, rfl⟩ : _ = j ∧ _ = r' := by
        have := Except.ok.inj h
        simpa using this
      show Except.ok (c, RawReader.mk (RecordSource.toRecord _ _ (Truncates.cut k r.reader) c) _ _ _ _ _ _ _) = _
      rw [LawfulCut.seek_cut]
      rfl

/-- Both readers, on cut streams. -/
class CutReader (σ : Type) [RecordSource σ] [StoresRecords σ] [Truncates σ] [LawfulCut σ] [PointReader (RawReader σ)] :
    Prop where
  into : ∀ {β : Type} [BorrowedMutBuffer β] [AsMemoryMut β] [CutTarget β] {k : Nat} {r r' : RawReader σ} {b b' : β}
    {count n : Nat}, PointReader.readInto r b count = .ok (n, b', r') →
    LawfulCut.pos r.reader ≤ LawfulCut.pos r'.reader ∧
    (LawfulCut.pos r'.reader ≤ k ∨ LawfulCut.pos r'.reader = LawfulCut.pos r.reader →
      PointReader.readInto (r.cut k) b count = .ok (n, b', r'.cut k)) ∧
    (k < LawfulCut.pos r'.reader → LawfulCut.pos r.reader < LawfulCut.pos r'.reader →
      PointReader.readInto (r.cut k) b count = .error .err)
  layout_cut : ∀ (k : Nat) (r : RawReader σ), PointReader.defaultLayout (r.cut k) = PointReader.defaultLayout r
  complete_iff : ∀ {k : Nat} {r : RawReader σ} {recs : List Bytes} {i : Nat}, Standing r recs i →
    (Complete k r i ↔ LawfulCut.pos r.reader ≤ k)
  behind : ∀ {r r' : RawReader σ} {recs : List Bytes} {i j : Nat}, Standing r recs i → Standing r' recs j →
    SameFile r r' → i < j → LawfulCut.pos r.reader < LawfulCut.pos r'.reader
  stays : ∀ {r r' : RawReader σ} {recs : List Bytes} {i : Nat}, Standing r recs i → Standing r' recs i →
    SameFile r r' → LawfulCut.pos r'.reader = LawfulCut.pos r.reader

instance cutLas : CutReader Stream where
  into := by
    intro β _ _ _ k r r' b b' count n h
    change (if len b < count then panicked
      else if layout b ≠ r.recordsLayout then r.readIntoCustomLayout b count
      else r.readIntoDefaultLayout b count) = _ at h
    show _ ∧ (_ → (if len b < count then panicked
      else if layout b ≠ r.recordsLayout then (r.cut k).readIntoCustomLayout b count
      else (r.cut k).readIntoDefaultLayout b count) = _) ∧ (_ → _ → (if len b < count then panicked
      else if layout b ≠ r.recordsLayout then (r.cut k).readIntoCustomLayout b count
      else (r.cut k).readIntoDefaultLayout b count) = _)
    by_cases h1 : len b < count
    · rw [if_pos h1] at h; cases h
    · simp only [if_neg h1] at h ⊢
      by_cases h2 : layout b ≠ r.recordsLayout
      · simp only [if_pos h2] at h ⊢
        exact custom_cut h
      · simp only [if_neg h2] at h ⊢
        exact default_cut h
  layout_cut := fun _ _ => rfl
  complete_iff := by
    intro k r recs i h
    obtain ⟨_, hp⟩ := h.stored
    show r.offsetToFirstPoint + i * r.sizeOfPoint ≤ k ↔ r.reader.pos ≤ k
    rw [hp]
  behind := by
    intro r r' recs i j h h' hs hij
    obtain ⟨_, _, _, _, e1, e2⟩ := hs
    have hpos := standing_pos h
    obtain ⟨_, hp⟩ := h.stored
    obtain ⟨_, hp'⟩ := h'.stored
    show r.reader.pos < r'.reader.pos
    rw [hp, hp', e1, e2]
    have := (Nat.mul_lt_mul_right hpos).2 hij
    omega
  stays := by
    intro r r' recs i h h' hs
    obtain ⟨_, _, _, _, e1, e2⟩ := hs
    obtain ⟨_, hp⟩ := h.stored
    obtain ⟨_, hp'⟩ := h'.stored
    show r'.reader.pos = r.reader.pos
    rw [hp, hp', e1, e2]

instance cutLaz : CutReader LazStream where
  into := by
    intro β _ _ _ k r r' b b' count n h
    change (if len b < count then panicked
      else if layout b ≠ r.recordsLayout then r.readIntoCustomLayoutAtOnce b count
      else r.readIntoDefaultLayout b count) = _ at h
    show _ ∧ (_ → (if len b < count then panicked
      else if layout b ≠ r.recordsLayout then (r.cut k).readIntoCustomLayoutAtOnce b count
      else (r.cut k).readIntoDefaultLayout b count) = _) ∧ (_ → _ → (if len b < count then panicked
      else if layout b ≠ r.recordsLayout then (r.cut k).readIntoCustomLayoutAtOnce b count
      else (r.cut k).readIntoDefaultLayout b count) = _)
    by_cases h1 : len b < count
    · rw [if_pos h1] at h; cases h
    · simp only [if_neg h1] at h ⊢
      by_cases h2 : layout b ≠ r.recordsLayout
      · simp only [if_pos h2] at h ⊢
        exact at_once_cut h
      · simp only [if_neg h2] at h ⊢
        exact default_cut h
  layout_cut := fun _ _ => rfl
  complete_iff := by
    intro k r recs i h
    obtain ⟨_, _, hp⟩ := h.stored
    show i ≤ k ↔ r.reader.next ≤ k
    rw [hp]
  behind := by
    intro r r' recs i j h h' _ hij
    obtain ⟨_, _, hp⟩ := h.stored
    obtain ⟨_, _, hp'⟩ := h'.stored
    show r.reader.next < r'.reader.next
    omega
  stays := by
    intro r r' recs i h h' _
    obtain ⟨_, _, hp⟩ := h.stored
    obtain ⟨_, _, hp'⟩ := h'.stored
    show r'.reader.next = r.reader.next
    omega

end Pasture.Las
