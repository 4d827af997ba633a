import Verif.Model.FailedReads
import Verif.Props.LasTruncated

/-!
# `read_into` with and without the reader it leaves behind
-/

namespace Pasture

open Las Spec BorrowedBuffer

/-- Without the reader left behind. -/
def forget {ρ α : Type} : Left ρ α → Out α
  | .ok a => .ok a
  | .error (f, _) => .error f

theorem forget_pure {ρ α : Type} (a : α) : forget (pure a : Left ρ α) = pure a := rfl

theorem forget_leaving {ρ α : Type} (r : ρ) (x : Out α) : forget (leaving r x) = x := by cases x <;> rfl

theorem forget_bind {ρ α γ : Type} (x : Left ρ α) (g : α → Left ρ γ) :
    forget (x >>= g) = forget x >>= fun a => forget (g a) := by
  cases x with
  | ok a => rfl
  | error e => rfl

theorem forget_loop {ρ α s : Type} {f : s → α → Left ρ s} {g : s → α → Out s} (h : ∀ x a, forget (f x a) = g x a) :
    ∀ (xs : List α) (x : s), forget (xs.foldlM f x) = forLoop xs x g := by
  intro xs
  induction xs with
  | nil => intro x; rfl
  | cons a xs ih =>
    intro x
    show forget (f x a >>= fun y => xs.foldlM f y) = (g x a >>= fun y => xs.foldlM g y)
    rw [forget_bind, h]
    congr 1
    funext y
    exact ih y

theorem of_forget {ρ α : Type} {x : Left ρ α} {a : α} (h : forget x = .ok a) : x = .ok a := by
  cases x with
  | ok b => cases h; rfl
  | error e => cases h

theorem of_forget_error {ρ α : Type} {x : Left ρ α} {f : Fault} (h : forget x = .error f) : ∃ r, x = .error (f, r) := by
  cases x with
  | ok b => cases h
  | error e => obtain ⟨f', r⟩ := e; cases h; exact ⟨r, rfl⟩

namespace Las

theorem forget_reading {σ α : Type} [FailingSource σ] (r : RawReader σ) (x : Out α) : forget (r.reading x) = x := by
  unfold RawReader.reading
  split <;> rfl

section
variable {σ : Type} [RecordSource σ] [FailingSource σ] {β : Type} [BorrowedMutBuffer β]

theorem forget_readChunk (size perChunk numChunks n : Nat) (r : RawReader σ) (s : σ) (b : β) (k : Nat) :
    forget (RawReader.readChunkLeft size perChunk numChunks n ({ r with reader := s }, b) k) =
      (RawReader.readChunk size perChunk numChunks n (s, b) k).map fun x => ({ r with reader := x.1 }, x.2) := by
  unfold RawReader.readChunkLeft RawReader.readChunk
  simp only [forget_bind, forget_leaving, forget_reading, forget_pure]
  generalize (if k = numChunks - 1 then (n - k * perChunk) * size else perChunk * size) = m
  cases sliceGet (zeros (perChunk * size)) 0 m with
  | error e => rfl
  | ok c =>
    show (RecordSource.fill s c >>= _) = Except.map _ (RecordSource.fill s c >>= _)
    cases RecordSource.fill s c with
    | error e => rfl
    | ok c' =>
      show (BorrowedMutBuffer.setPointRange b _ c' >>= _) = Except.map _ (BorrowedMutBuffer.setPointRange b _ c' >>= _)
      cases BorrowedMutBuffer.setPointRange b ⟨k * perChunk, min ((k + 1) * perChunk) n⟩ c' <;> rfl

theorem forget_readChunks (size perChunk numChunks n : Nat) (r : RawReader σ) : ∀ (ks : List Nat) (s : σ) (b : β),
    forget (ks.foldlM (RawReader.readChunkLeft size perChunk numChunks n) ({ r with reader := s }, b)) =
      (forLoop ks (s, b) (RawReader.readChunk size perChunk numChunks n)).map
        fun x => ({ r with reader := x.1 }, x.2) := by
  intro ks
  induction ks with
  | nil => intro s b; rfl
  | cons k ks ih =>
    intro s b
    rw [forLoop_cons]
    show forget (RawReader.readChunkLeft size perChunk numChunks n ({ r with reader := s }, b) k >>= fun y =>
      ks.foldlM (RawReader.readChunkLeft size perChunk numChunks n) y) = _
    rw [forget_bind, forget_readChunk]
    cases RawReader.readChunk size perChunk numChunks n (s, b) k with
    | error e => rfl
    | ok x => exact ih x.1 x.2

variable [AsMemoryMut β]

theorem forget_default (r : RawReader σ) (b : β) (count : Nat) :
    forget (r.readIntoDefaultLayoutLeft b count) = r.readIntoDefaultLayout b count := by
  unfold RawReader.readIntoDefaultLayoutLeft RawReader.readIntoDefaultLayout
  generalize min count r.remainingPoints = n
  simp only
  by_cases h0 : n = 0
  · rw [if_pos h0, if_pos h0]; rfl
  · rw [if_neg h0, if_neg h0]
    cases AsMemoryMut.asInterleavedMut (β := β) with
    | some i =>
      simp only [forget_bind, forget_reading, forget_pure]
    | none =>
      simp only [forget_bind, forget_leaving, forget_pure]
      congr 1; funext _
      congr 1; funext _
      have := forget_readChunks r.sizeOfPoint (2 ^ 20 / r.sizeOfPoint)
        ((n + 2 ^ 20 / r.sizeOfPoint - 1) / (2 ^ 20 / r.sizeOfPoint)) n r
        (List.range ((n + 2 ^ 20 / r.sizeOfPoint - 1) / (2 ^ 20 / r.sizeOfPoint))) r.reader b
      rw [show ({ r with reader := r.reader } : RawReader σ) = r from rfl] at this
      rw [this]
      cases forLoop (List.range ((n + 2 ^ 20 / r.sizeOfPoint - 1) / (2 ^ 20 / r.sizeOfPoint))) (r.reader, b) _ with
      | error e => rfl
      | ok x => rfl

theorem forget_convertChunk (conv : BufferLayoutConverter) (sizeOfChunk numChunks n : Nat)
    (state : RawReader σ × VectorBuffer × β) (k : Nat) :
    forget (RawReader.convertChunkLeft conv sizeOfChunk numChunks n state k) =
      RawReader.convertChunk conv sizeOfChunk numChunks n state k := by
  unfold RawReader.convertChunkLeft RawReader.convertChunk
  simp only [forget_bind, forget_leaving, forget_pure, forget_default]

theorem forget_custom (r : RawReader σ) (b : β) (count : Nat) :
    forget (r.readIntoCustomLayoutLeft b count) = r.readIntoCustomLayout b count := by
  unfold RawReader.readIntoCustomLayoutLeft RawReader.readIntoCustomLayout
  generalize min count r.remainingPoints = n
  simp only
  by_cases h0 : n = 0
  · rw [if_pos h0, if_pos h0]; rfl
  · rw [if_neg h0, if_neg h0]
    simp only [forget_bind, forget_leaving, forget_pure, forget_loop (forget_convertChunk _ _ _ _)]

theorem forget_at_once (r : RawReader σ) (b : β) (count : Nat) :
    forget (r.readIntoCustomLayoutAtOnceLeft b count) = r.readIntoCustomLayoutAtOnce b count := by
  unfold RawReader.readIntoCustomLayoutAtOnceLeft RawReader.readIntoCustomLayoutAtOnce
  generalize min count r.remainingPoints = n
  simp only
  by_cases h0 : n = 0
  · rw [if_pos h0, if_pos h0]; rfl
  · rw [if_neg h0, if_neg h0]
    simp only [forget_bind, forget_leaving, forget_pure, forget_default]

end

variable {β : Type} [BorrowedMutBuffer β] [AsMemoryMut β]

theorem forget_las (r : RawLasReader) (b : β) (count : Nat) :
    forget (readIntoLas r b count) = PointReader.readInto r b count := by
  unfold readIntoLas
  show _ = if len b < count then panicked
    else if layout b ≠ r.recordsLayout then r.readIntoCustomLayout b count else r.readIntoDefaultLayout b count
  split
  · rfl
  · split
    · exact forget_custom r b count
    · exact forget_default r b count

theorem forget_laz (r : RawLazReader) (b : β) (count : Nat) :
    forget (readIntoLaz r b count) = PointReader.readInto r b count := by
  unfold readIntoLaz
  show _ = if len b < count then panicked
    else if layout b ≠ r.recordsLayout then r.readIntoCustomLayoutAtOnce b count else r.readIntoDefaultLayout b count
  split
  · rfl
  · split
    · exact forget_at_once r b count
    · exact forget_default r b count

end Las

theorem forget_pnts {β : Type} [BorrowedMutBuffer β] (r : Tiles3d.PntsReader) (b : β) (count : Nat) :
    forget (r.readIntoLeft b count) = r.readInto b count := by
  unfold Tiles3d.PntsReader.readIntoLeft Tiles3d.PntsReader.readInto
  simp only [forget_bind, forget_leaving, forget_pure]
  congr 1; funext _
  congr 1; funext _
  split <;> rfl

theorem forget_readLoop {β : Type} [BorrowedMutBuffer β] (r : Ascii.RawAsciiReader) :
    ∀ (count index : Nat) (point : UntypedPoint) (text : List Char) (b : β),
    forget (Ascii.readLoopLeft r count index point text b) =
      Ascii.RawAsciiReader.readLoop r.delimiter r.parseLayout count index point text b := by
  intro count
  induction count with
  | zero => intro _ _ _ _; rfl
  | succ count ih =>
    intro index point text b
    unfold Ascii.readLoopLeft Ascii.RawAsciiReader.readLoop
    cases Ascii.nextLine text with
    | none => rfl
    | some x => simp only [forget_bind, forget_leaving, ih]

theorem forget_ascii {β : Type} [BorrowedMutBuffer β] [AsMemoryMut β] (r : Ascii.RawAsciiReader) (b : β) (count : Nat) :
    forget (Ascii.readIntoAscii r b count) = PointReader.readInto r b count := by
  unfold Ascii.readIntoAscii
  simp only [forget_bind, forget_pure, forget_readLoop]
  rfl

/-! ## What every call leaves alone -/

namespace Las

/-- Seeking does not depend on where the source stands. -/
class Rewinds (σ : Type) [RecordSource σ] [FailingSource σ] where
  advance : ∀ (s : σ) (n o z i : Nat),
    RecordSource.toRecord o z (RecordSource.advance s n) i = RecordSource.toRecord o z s i
  failure : ∀ (s : σ) (o z i : Nat),
    RecordSource.toRecord o z (FailingSource.afterFailure s) i = RecordSource.toRecord o z s i

instance : Rewinds Stream := ⟨fun _ _ _ _ _ => rfl, fun _ _ _ _ => rfl⟩
instance : Rewinds LazStream := ⟨fun _ _ _ _ _ => rfl, fun _ _ _ _ => rfl⟩

section
variable {σ : Type} [RecordSource σ] [FailingSource σ] [Rewinds σ]

/-- The same file, wherever the two readers stand. -/
def SameSource (r r' : RawReader σ) : Prop :=
  SameFile r r' ∧ ∀ o z i, RecordSource.toRecord o z r'.reader i = RecordSource.toRecord o z r.reader i

omit [FailingSource σ] [Rewinds σ] in
theorem SameSource.refl (r : RawReader σ) : SameSource r r := ⟨sameFile_refl r, fun _ _ _ => rfl⟩

omit [FailingSource σ] [Rewinds σ] in
theorem SameSource.trans {r r' r'' : RawReader σ} (h : SameSource r r') (h' : SameSource r' r'') : SameSource r r'' := by
  obtain ⟨⟨a1, a2, a3, a4, a5, a6⟩, h⟩ := h
  obtain ⟨⟨b1, b2, b3, b4, b5, b6⟩, h'⟩ := h'
  exact ⟨⟨b1.trans a1, b2.trans a2, b3.trans a3, b4.trans a4, b5.trans a5, b6.trans a6⟩,
    fun o z i => (h' o z i).trans (h o z i)⟩

/-- The reader a call returns or leaves behind satisfies `P`. -/
def Leaves {ρ α : Type} (P : ρ → Prop) (reader : α → ρ) : Left ρ α → Prop
  | .ok a => P (reader a)
  | .error (_, r) => P r

theorem leaves_bind {ρ α γ : Type} {P : ρ → Prop} {f : α → ρ} {g : γ → ρ} {x : Left ρ α} {k : α → Left ρ γ}
    (h : Leaves P f x) (hk : ∀ a, P (f a) → Leaves P g (k a)) : Leaves P g (x >>= k) := by
  cases x with
  | ok a => exact hk a h
  | error e => exact h

theorem leaves_leaving {ρ α γ : Type} {P : ρ → Prop} {g : γ → ρ} {r : ρ} {x : Out α} {k : α → Left ρ γ} (h : P r)
    (hk : ∀ a, Leaves P g (k a)) : Leaves P g (leaving r x >>= k) := by
  cases x with
  | ok a => exact hk a
  | error e => exact h

theorem leaves_reading {α γ : Type} {r₀ r : RawReader σ} {g : γ → RawReader σ} {x : Out α}
    {k : α → Left (RawReader σ) γ} (h : SameSource r₀ r) (hk : ∀ a, Leaves (SameSource r₀) g (k a)) :
    Leaves (SameSource r₀) g (r.reading x >>= k) := by
  unfold RawReader.reading
  split
  · exact hk _
  · exact h.trans ⟨sameFile_refl r, Rewinds.failure r.reader⟩
  · exact h

theorem leaves_loop {ρ α s : Type} {P : ρ → Prop} {g : s → ρ} {f : s → α → Left ρ s}
    (hf : ∀ x a, P (g x) → Leaves P g (f x a)) : ∀ (xs : List α) (x : s), P (g x) → Leaves P g (xs.foldlM f x) := by
  intro xs
  induction xs with
  | nil => intro x h; exact h
  | cons a xs ih => intro x h; exact leaves_bind (hf x a h) fun y hy => ih y hy

variable {β : Type} [BorrowedMutBuffer β]

theorem leaves_readChunk (size perChunk numChunks n : Nat) {r₀ : RawReader σ} (x : RawReader σ × β) (k : Nat)
    (h : SameSource r₀ x.1) :
    Leaves (SameSource r₀) Prod.fst (RawReader.readChunkLeft size perChunk numChunks n x k) := by
  unfold RawReader.readChunkLeft
  refine leaves_leaving h fun c => leaves_reading h fun c' => ?_
  have h' : ∀ m, SameSource r₀ { x.1 with reader := RecordSource.advance x.1.reader m } :=
    fun m => h.trans ⟨sameFile_refl x.1, Rewinds.advance x.1.reader m⟩
  exact leaves_leaving (h' _) fun b => h' _

variable [AsMemoryMut β]

theorem leaves_default (r : RawReader σ) (b : β) (count : Nat) :
    Leaves (SameSource r) (fun x => x.2.2) (r.readIntoDefaultLayoutLeft b count) := by
  unfold RawReader.readIntoDefaultLayoutLeft
  generalize min count r.remainingPoints = n
  simp only
  by_cases h0 : n = 0
  · rw [if_pos h0]; exact SameSource.refl r
  · rw [if_neg h0]
    cases AsMemoryMut.asInterleavedMut (β := β) with
    | some i =>
      refine leaves_reading (SameSource.refl r) fun b => ?_
      exact ⟨sameFile_refl r, Rewinds.advance r.reader _⟩
    | none =>
      refine leaves_leaving (SameSource.refl r) fun _ => leaves_leaving (SameSource.refl r) fun _ => ?_
      refine leaves_bind (f := Prod.fst) (leaves_loop (leaves_readChunk _ _ _ _) _ _ (SameSource.refl r)) ?_
      rintro ⟨r', b'⟩ h
      exact h.trans ⟨sameFile_refl r', fun _ _ _ => rfl⟩

theorem leaves_convertChunk (conv : BufferLayoutConverter) (sizeOfChunk numChunks n : Nat) {r₀ : RawReader σ}
    (x : RawReader σ × VectorBuffer × β) (k : Nat) (h : SameSource r₀ x.1) :
    Leaves (SameSource r₀) Prod.fst (RawReader.convertChunkLeft conv sizeOfChunk numChunks n x k) := by
  unfold RawReader.convertChunkLeft
  generalize (if k = numChunks - 1 then n - (numChunks - 1) * sizeOfChunk else sizeOfChunk) = m
  have hd := leaves_default x.1 x.2.1 m
  refine leaves_bind (f := fun x => x.2.2) (P := SameSource r₀) ?_ ?_
  · revert hd
    generalize x.1.readIntoDefaultLayoutLeft x.2.1 m = y
    intro hd
    cases y with
    | ok a => exact h.trans hd
    | error e => exact h.trans hd
  · rintro ⟨n, scratch, r⟩ hr
    exact leaves_leaving hr fun b => hr

theorem leaves_custom (r : RawReader σ) (b : β) (count : Nat) :
    Leaves (SameSource r) (fun x => x.2.2) (r.readIntoCustomLayoutLeft b count) := by
  unfold RawReader.readIntoCustomLayoutLeft
  generalize min count r.remainingPoints = n
  simp only
  by_cases h0 : n = 0
  · rw [if_pos h0]; exact SameSource.refl r
  · rw [if_neg h0]
    refine leaves_leaving (SameSource.refl r) fun _ => leaves_leaving (SameSource.refl r) fun _ =>
      leaves_leaving (SameSource.refl r) fun conv => ?_
    refine leaves_bind (f := Prod.fst) (leaves_loop (leaves_convertChunk _ _ _ _) _ _ (SameSource.refl r)) ?_
    rintro ⟨r', _, b'⟩ h
    exact h

theorem leaves_at_once (r : RawReader σ) (b : β) (count : Nat) :
    Leaves (SameSource r) (fun x => x.2.2) (r.readIntoCustomLayoutAtOnceLeft b count) := by
  unfold RawReader.readIntoCustomLayoutAtOnceLeft
  generalize min count r.remainingPoints = n
  simp only
  by_cases h0 : n = 0
  · rw [if_pos h0]; exact SameSource.refl r
  · rw [if_neg h0]
    refine leaves_bind (leaves_default r _ n) ?_
    rintro ⟨_, scratch, r'⟩ h
    exact leaves_leaving h fun conv => leaves_leaving h fun b => h

end

variable {β : Type} [BorrowedMutBuffer β] [AsMemoryMut β]

theorem leaves_las (r : RawLasReader) (b : β) (count : Nat) :
    Leaves (SameSource r) (fun x => x.2.2) (readIntoLas r b count) := by
  unfold readIntoLas
  split
  · exact SameSource.refl r
  · split
    · exact leaves_custom r b count
    · exact leaves_default r b count

theorem leaves_laz (r : RawLazReader) (b : β) (count : Nat) :
    Leaves (SameSource r) (fun x => x.2.2) (readIntoLaz r b count) := by
  unfold readIntoLaz
  split
  · exact SameSource.refl r
  · split
    · exact leaves_at_once r b count
    · exact leaves_default r b count

end Las

end Pasture
