import Verif.Lemmas.LasRefuse
import Verif.Props.LasWriter

/-!
# C85: which points LAS and LAZ writers refuse
-/

namespace Pasture.Props

open Pasture.Spec Pasture.Las

theorem refused_split {n : Nat} {t : Transforms} {ps qs : List Point} (h : (ps ++ qs).mapM (storedRecord n t) = none) :
    ps.mapM (storedRecord n t) = none ∨ ∃ recs, Stored n t ps recs ∧ qs.mapM (storedRecord n t) = none := by
  cases hp : ps.mapM (storedRecord n t) with
  | none => exact Or.inl rfl
  | some recs =>
    right
    refine ⟨recs, hp, ?_⟩
    rw [List.mapM_append, hp] at h
    cases hq : qs.mapM (storedRecord n t) with
    | none => rfl
    | some rs => rw [hq] at h; cases h

theorem run_las_refused {encode : LasHeader → Bytes} {H : Nat} (hH : ∀ h, (encode h).length = H) {vlrs evlrs : Bytes}
    {n : Nat} {f : Format} (hf : Format.new n = .ok f) {l : PointLayout} (hd : DefaultFor f l) {start : LasHeader}
    (hs : start.format % 64 = n) (calls : List WriterCall) : ∀ {ps counted : List Point} {recs : List Bytes} {w : RawLasWriter},
    LasInv encode H vlrs evlrs n l start ps counted recs w →
    (written calls).mapM (storedRecord n start.transforms) = none → runLas encode w calls = panicked := by
  induction calls with
  | nil => intro ps counted recs w _ h; cases h
  | cons c cs ih =>
    intro ps counted recs w i h
    cases c with
    | flush =>
      obtain ⟨i', _, _⟩ := i.flush hH
      exact ih i' h
    | write b =>
      show (w.write b.buffer).bind _ = _
      rcases refused_split (ps := b.points) (qs := written cs) h with h1 | ⟨r1, h1, h2⟩
      · rw [i.refuse hf hd hs b h1]
        rfl
      · obtain ⟨w1, g1, g2, _⟩ := i.write hf hd hs b h1
        rw [g1]
        exact ih g2 h2

theorem run_laz_refused {n : Nat} {f : Format} (hf : Format.new n = .ok f) {l : PointLayout} (hd : DefaultFor f l)
    {start : LasHeader} (hs : start.format % 64 = n) (hrl : start.recordLength = lasRecordLength n) (bs : List Batch) :
    ∀ {ps counted : List Point} {w : RawLazWriter}, LazInv n l start ps counted w →
    (bs.flatMap Batch.points).mapM (storedRecord n start.transforms) = none → runLaz w bs = panicked := by
  induction bs with
  | nil => intro ps counted w _ h; cases h
  | cons b bs ih =>
    intro ps counted w i h
    show (w.write b.buffer).bind _ = _
    rcases refused_split (ps := b.points) (qs := bs.flatMap Batch.points) h with h1 | ⟨r1, h1, h2⟩
    · rw [i.refuse hf hd hs hrl b h1]
      rfl
    · obtain ⟨w1, g1, g2, _⟩ := i.write hf hd hs hrl b h1
      rw [g1]
      exact ih g2 h2

/-- **C85**, LAS files: a sequence of calls of `write` and `flush` succeeds if and only if every point written has a
    record in the point format of the file; otherwise the writer panics. `C85_obstacles` says which points have none. -/
theorem C85_las {n : Nat} {encode : LasHeader → Bytes} {H : Nat} {template : LasHeader} {vlrs evlrs : Bytes}
    {w : RawLasWriter} (o : OpenedLas n encode H template vlrs evlrs w) (calls : List WriterCall) :
    ((∀ p ∈ written calls, ∃ rec, storedRecord n template.transforms p = some rec) ∧ ∃ w', runLas encode w calls = .ok w') ∨
    ((∃ p ∈ written calls, storedRecord n template.transforms p = none) ∧ runLas encode w calls = panicked) := by
  obtain ⟨f, hf, hd, _, hfm, htr, _, _, _, _, i⟩ := open_las o
  have hs : w.header.format % 64 = n := by rw [hfm]; exact o.number
  cases h : (written calls).mapM (storedRecord n template.transforms) with
  | some recs =>
    left
    obtain ⟨w', g, _⟩ := run_las o.header_size hf hd hs calls i (htr ▸ h)
    exact ⟨mapM_some_mem h, w', g⟩
  | none =>
    right
    obtain ⟨j, p, h1, h2⟩ := mapM_none_getElem h
    exact ⟨⟨p, List.mem_of_getElem? h1, h2⟩, run_las_refused o.header_size hf hd hs calls i (htr ▸ h)⟩

/-- **C85**, LAZ files. -/
theorem C85_laz {n : Nat} {template : LasHeader} {w : RawLazWriter} (o : OpenedLaz n template w) (bs : List Batch) :
    ((∀ p ∈ bs.flatMap Batch.points, ∃ rec, storedRecord n template.transforms p = some rec) ∧
      ∃ w', runLaz w bs = .ok w') ∨
    ((∃ p ∈ bs.flatMap Batch.points, storedRecord n template.transforms p = none) ∧ runLaz w bs = panicked) := by
  obtain ⟨f, hf, hd, _, hfm, htr, hrl, _, _, _, _, _, i⟩ := open_laz o
  have hs : w.header.format % 64 = n := by rw [hfm]; exact o.number
  have hr : w.header.recordLength = lasRecordLength n := by rw [hrl]; exact o.length
  cases h : (bs.flatMap Batch.points).mapM (storedRecord n template.transforms) with
  | some recs =>
    left
    obtain ⟨w', g, _⟩ := run_laz hf hd hs hr bs i (htr ▸ h)
    exact ⟨mapM_some_mem h, w', g⟩
  | none =>
    right
    obtain ⟨j, p, h1, h2⟩ := mapM_none_getElem h
    exact ⟨⟨p, List.mem_of_getElem? h1, h2⟩, run_laz_refused hf hd hs hr bs i (htr ▸ h)⟩

/-! ## Which points have no record -/

theorem items_written (f : Format) : (∀ it ∈ itemsOf f, it.1 = "LASLocalPosition" ∨ it.1 = "LASBasicFlags" ∨
    it.1 = "LASExtendedFlags" ∨ it.1 ∈ (writtenAttributes f).map AttrDef.name) ∧
    ("LASBasicFlags" ∈ (itemsOf f).map Prod.fst → ∀ fd ∈ packedBasic, fd.1 ∈ (writtenAttributes f).map AttrDef.name) ∧
    ("LASExtendedFlags" ∈ (itemsOf f).map Prod.fst → ∀ fd ∈ packedExtended, fd.1 ∈ (writtenAttributes f).map AttrDef.name) ∧
    "LASLocalPosition" ∈ (itemsOf f).map Prod.fst ∧ "Position3D" ∈ (writtenAttributes f).map AttrDef.name := by
  obtain ⟨g, c, e, w, r, x, z⟩ := f
  have key : ∀ g c e w r : Bool, let f : Format := ⟨g, c, e, w, r, 0, false⟩
    (∀ it ∈ itemsOf f, it.1 = "LASLocalPosition" ∨ it.1 = "LASBasicFlags" ∨
    it.1 = "LASExtendedFlags" ∨ it.1 ∈ (writtenAttributes f).map AttrDef.name) ∧
    ("LASBasicFlags" ∈ (itemsOf f).map Prod.fst → ∀ fd ∈ packedBasic, fd.1 ∈ (writtenAttributes f).map AttrDef.name) ∧
    ("LASExtendedFlags" ∈ (itemsOf f).map Prod.fst → ∀ fd ∈ packedExtended, fd.1 ∈ (writtenAttributes f).map AttrDef.name) ∧
    "LASLocalPosition" ∈ (itemsOf f).map Prod.fst ∧ "Position3D" ∈ (writtenAttributes f).map AttrDef.name := by decide +kernel
  exact key g c e w r

theorem mapM_all {α γ : Type} {f : α → Option γ} : ∀ {xs : List α}, (∀ x ∈ xs, ∃ y, f x = some y) → ∃ ys, xs.mapM f = some ys
  | [], _ => ⟨[], rfl⟩
  | x :: xs, h => by
    obtain ⟨y, hy⟩ := h x (by simp)
    obtain ⟨ys, hys⟩ := mapM_all (xs := xs) fun z hz => h z (by simp [hz])
    exact ⟨y :: ys, by rw [List.mapM_cons, hy, hys]; rfl⟩

theorem quantize_cases (a : Axis) (x : F64) : (∃ z, quantize a x = .ok z) ∨ quantize a x = panicked := by
  unfold quantize
  dsimp only
  split
  · exact Or.inl ⟨_, rfl⟩
  · exact Or.inr rfl

/-- A coordinate of the position does not fit into 32 bits. -/
def TooFar (t : Transforms) (q : P3 F64) : Prop :=
  quantize t.x q.x = panicked ∨ quantize t.y q.y = panicked ∨ quantize t.z q.z = panicked

theorem position_refused (t : Transforms) (q : P3 F64) : storedPosition t q = none ↔ TooFar t q := by
  unfold storedPosition storedCoordinate TooFar
  rcases quantize_cases t.x q.x with ⟨x, hx⟩ | hx <;> rcases quantize_cases t.y q.y with ⟨y, hy⟩ | hy <;>
    rcases quantize_cases t.z q.z with ⟨z, hz⟩ | hz <;> rw [hx, hy, hz] <;>
    simp [Except.toOption, panicked]

/-- **C85**, which points are refused: those with a LAS attribute in a type that cannot be converted to the type it has
    in LAS files, and those with a coordinate that does not fit into a 32-bit integer after scaling (for finite
    coordinates, `C37_in_range` and `C37_out_of_range` say which those are). -/
theorem C85_obstacles {n : Nat} {f : Format} (hf : Format.new n = .ok f) (t : Transforms) (p : Point) :
    storedRecord n t p = none ↔ (∃ d ∈ writtenAttributes f, lasValue p d.name = none) ∨
      ∃ q, lasPosition p = some q ∧ TooFar t q := by
  obtain ⟨i1, i2, i3, i4, i5⟩ := items_written f
  constructor
  · intro h
    by_contra hc
    push Not at hc
    obtain ⟨c1, c2⟩ := hc
    have val : ∀ name ∈ (writtenAttributes f).map AttrDef.name, ∃ v, lasValue p name = some v := by
      intro name hn
      obtain ⟨d, hd, rfl⟩ := List.mem_map.1 hn
      exact Option.ne_none_iff_exists'.1 (c1 d hd)
    have bits : ∀ size fields, (∀ fd ∈ fields, fd.1 ∈ (writtenAttributes f).map AttrDef.name) →
        ∃ b, packBits size fields p = some b := by
      intro size fields hfd
      unfold packBits
      obtain ⟨ys, hys⟩ := mapM_all (f := fun (fd : String × Nat × Nat) => (lasValue p fd.1).map fun v =>
        2 ^ fd.2.1 * (leNat v % 2 ^ fd.2.2)) (xs := fields) (by
          intro fd hm
          obtain ⟨v, hv⟩ := val _ (hfd fd hm)
          exact ⟨_, by rw [hv]; rfl⟩)
      exact ⟨_, by rw [hys]; rfl⟩
    have : ∃ rec, storedRecord n t p = some rec := by
      unfold storedRecord
      obtain ⟨ys, hys⟩ := mapM_all (f := fun (item : String × Nat) => storedItem t p item.1) (xs := lasItems n) (by
        intro it hit
        rw [(itemsOf_eq hf).1] at hit
        unfold storedItem
        have hin : it.1 ∈ (itemsOf f).map Prod.fst := List.mem_map_of_mem hit
        split
        · obtain ⟨v, hv⟩ := val _ i5
          have hq : lasPosition p = some (positionOf v) := by unfold lasPosition; rw [hv]; rfl
          rw [hq]
          exact Option.ne_none_iff_exists'.1 fun e => c2 _ hq ((position_refused t _).1 e)
        · split
          · rename_i e
            exact bits _ _ (i2 (e ▸ hin))
          · split
            · rename_i e
              exact bits _ _ (i3 (e ▸ hin))
            · rename_i h1 h2 h3
              rcases i1 it hit with h | h | h | h
              · exact absurd h h1
              · exact absurd h h2
              · exact absurd h h3
              · exact val _ h)
      exact ⟨_, by rw [hys]; rfl⟩
    obtain ⟨rec, hr⟩ := this
    rw [h] at hr
    cases hr
  · rintro (⟨d, hd, hv⟩ | ⟨q, hq, hfar⟩)
    · cases h : storedRecord n t p with
      | none => rfl
      | some r =>
        obtain ⟨b, hb⟩ := storedRecord_values hf h hd
        rw [hv] at hb
        cases hb
    · cases h : storedRecord n t p with
      | none => rfl
      | some r =>
        unfold storedRecord at h
        rw [(itemsOf_eq hf).1] at h
        obtain ⟨bs, h1, _⟩ := Option.map_eq_some_iff.1 h
        obtain ⟨it, h2, h3⟩ := List.mem_map.1 i4
        obtain ⟨b, hb⟩ := mapM_some_mem h1 it h2
        rw [h3] at hb
        obtain ⟨q', hq', hs⟩ := Option.bind_eq_some_iff.1 (show (lasPosition p).bind (storedPosition t) = some b from hb)
        obtain rfl : q = q' := Option.some.inj (hq.symm.trans hq')
        rw [(position_refused t q).2 hfar] at hs
        cases hs

/-- A coordinate that is not a number is stored as 0. -/
theorem nan_stored (a : Axis) (x : F64) (hx : x.isNaN = true) : quantize a x = .ok 0 := by
  have hn : (Flt.nan .f64).isNaN = true := by decide
  have h1 : x.sub a.offset = Flt.nan .f64 := by
    unfold Flt.sub Flt.add
    rw [if_pos (Or.inl hx)]
  have h2 : (Flt.nan .f64).div a.scale = Flt.nan .f64 := by
    unfold Flt.div
    rw [if_pos (Or.inl hn)]
  unfold quantize
  rw [h1, h2]
  unfold Flt.toIntSat
  rw [if_pos hn]
  rfl

/-- The point (NaN, 0, 0) with return number 1. -/
def nanRecord : Bytes := [0, 0, 0, 0, 0, 0, 0xf8, 0x7f] ++ zeros 16 ++ [1]

/-- **C85 violated**: a point whose x coordinate is not a number is accepted and comes back at the offset of the file
    (here 0) instead. -/
theorem C85_nan_violated : ∃ w w' l q v, OpenedLas 0 smallEncode 12 smallHeader [] [] w ∧
    (positionOf (window nanRecord 0 24)).x.isNaN = true ∧
    runLas smallEncode w [.write (copies smallLayout small_solid nanRecord (by decide) 1)] = .ok w' ∧
    pointLayoutFromMetadata ⟨format0, none⟩ false = .ok l ∧
    restoredPoint 0 smallHeader.transforms l (pointOf smallLayout nanRecord) = some q ∧ (position3D, v) ∈ q ∧
    positionOf v = ⟨.zero .f64, .zero .f64, .zero .f64⟩ := by
  obtain ⟨w, o⟩ := opens_las (n := 0) (by omega) smallEncode small_encode smallHeader rfl small_scales [] []
  have hst : (storedRecord 0 smallHeader.transforms (pointOf smallLayout nanRecord)).isSome = true := by decide +kernel
  obtain ⟨rec, hrec⟩ := Option.isSome_iff_exists.1 hst
  obtain ⟨f, h1, _, h3⟩ := layouts_packed 0 (by omega)
  obtain rfl : f = format0 := by cases h1; rfl
  have hq : ((restoredPoint 0 smallHeader.transforms (packedLayout (writtenAttributes format0))
      (pointOf smallLayout nanRecord)).any fun q => decide ((position3D, zeros 24) ∈ q)) = true := by decide +kernel
  rcases C85_las o [.write (copies smallLayout small_solid nanRecord (by decide) 1)] with ⟨_, w', hw⟩ | ⟨⟨p, hp, hn⟩, _⟩
  · cases hr : restoredPoint 0 smallHeader.transforms (packedLayout (writtenAttributes format0))
        (pointOf smallLayout nanRecord) with
    | none => rw [hr] at hq; cases hq
    | some q =>
      rw [hr] at hq
      exact ⟨w, w', _, q, zeros 24, o, by decide +kernel, hw, h3, hr, of_decide_eq_true hq, by decide +kernel⟩
  · have : p = pointOf smallLayout nanRecord := by
      simpa [written, WriterCall.points, copies] using hp
    rw [this, hrec] at hn
    cases hn

/-- The point (2^31, 0, 0). -/
def farRecord : Bytes := [0, 0, 0, 0, 0, 0, 0xe0, 0x41] ++ zeros 16 ++ [1]

/-- A point that is refused because it is too far away, and one that is not. -/
example : storedRecord 0 smallHeader.transforms (pointOf smallLayout farRecord) = none ∧
    (storedRecord 0 smallHeader.transforms (pointOf smallLayout smallRecord)).isSome = true := by decide +kernel

end Pasture.Props
