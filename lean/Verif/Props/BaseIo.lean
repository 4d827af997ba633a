import Verif.Model.BaseIo
import Verif.Props.LasReader

/-! # C49 (file extensions) and the second half of C48 (`read_all`, `read_all_into`) -/

namespace Pasture.Spec

/-- The text is the word, letter by letter in lower or upper case. -/
def AnyCase (text : List Char) (word : String) : Prop :=
  List.Forall₂ (fun c d => c = d ∨ c = d.toUpper) text word.toList

/-- The file is called `stem.ext`. -/
def NamedWith (name ext : List Char) : Prop := '.' ∉ ext ∧ ∃ stem, stem ≠ [] ∧ name = stem ++ '.' :: ext

end Pasture.Spec

namespace Pasture.Props

open Spec Las BaseIo BorrowedBuffer

/-! ## C49 -/

theorem extension_eq {stem e : List Char} (hs : stem ≠ []) (hd : '.' ∉ e) (he : e ≠ []) :
    extension (stem ++ '.' :: e) = some e := by
  have hpos : 0 < stem.length := List.length_pos_of_ne_nil hs
  have htw : ((stem ++ '.' :: e).reverse.takeWhile (fun c => c ≠ '.')).reverse = e := by
    rw [List.reverse_append, List.reverse_cons, List.append_assoc, List.takeWhile_append_of_pos]
    · simp
    · intro c hc
      rw [List.mem_reverse] at hc
      have : c ≠ '.' := fun h => hd (h ▸ hc)
      simpa using this
  have hne : stem ++ '.' :: e ≠ ['.', '.'] := by
    intro h
    have hl := congrArg List.length h
    have : 0 < e.length := List.length_pos_of_ne_nil he
    simp at hl
    omega
  unfold extension
  rw [if_neg hne]
  simp only [htw]
  rw [if_neg (by simp; omega), if_neg (by simp; omega)]

theorem extension_some {name e : List Char} (h : extension name = some e) : NamedWith name e := by
  unfold extension at h
  by_cases h0 : name = ['.', '.']
  · rw [if_pos h0] at h; cases h
  · rw [if_neg h0] at h
    simp only at h
    generalize ha : (name.reverse.takeWhile (fun c => c ≠ '.')).reverse = a at h
    have hrev : name.reverse.takeWhile (fun c => c ≠ '.') = a.reverse := by rw [← ha, List.reverse_reverse]
    have hsplit : name.reverse = a.reverse ++ name.reverse.dropWhile (fun c => c ≠ '.') := by
      rw [← hrev, List.takeWhile_append_dropWhile]
    by_cases h1 : a.length = name.length
    · rw [if_pos h1] at h; cases h
    · rw [if_neg h1] at h
      by_cases h2 : name.length - a.length - 1 = 0
      · rw [if_pos h2] at h; cases h
      · rw [if_neg h2] at h
        injection h with h
        subst h
        refine ⟨?_, ?_⟩
        · intro hm
          have hm' : '.' ∈ name.reverse.takeWhile (fun c => c ≠ '.') := by rw [hrev]; simpa using hm
          simpa using List.mem_takeWhile_imp hm'
        · cases hdw : name.reverse.dropWhile (fun c => c ≠ '.') with
          | nil =>
            rw [hdw, List.append_nil] at hsplit
            have := congrArg List.length hsplit
            simp at this
            omega
          | cons c rest =>
            have hc : ¬ (decide (c ≠ '.')) = true := by
              have := List.head_dropWhile_not (fun c => decide (c ≠ '.')) (by rw [hdw]; simp : name.reverse.dropWhile (fun c => decide (c ≠ '.')) ≠ [])
              simp only [hdw, List.head_cons] at this
              simp [this]
            have hc' : c = '.' := by simpa using hc
            subst hc'
            rw [hdw] at hsplit
            have hn : name = rest.reverse ++ '.' :: a := by
              have := congrArg List.reverse hsplit
              simpa using this
            refine ⟨rest.reverse, ?_, hn⟩
            intro h3
            rw [h3] at hn
            have := congrArg List.length hn
            simp at this
            omega

theorem toLower_eq {c d : Char} (h1 : 97 ≤ d.toNat) (h2 : d.toNat ≤ 122) : c.toLower = d ↔ c = d ∨ c = d.toUpper := by
  obtain ⟨u, hu⟩ := c
  obtain ⟨v, hv⟩ := d
  have e1 : (97 : UInt32) - 65 = 32 := rfl
  have e2 : (65 : UInt32) - 97 = 4294967264 := rfl
  have e3 : 'A'.val = 65 := rfl
  have e4 : 'Z'.val = 90 := rfl
  have e5 : 'a'.val = 97 := rfl
  have e6 : 'z'.val = 122 := rfl
  simp only [Char.toNat] at h1 h2
  unfold Char.toLower Char.toUpper
  simp only [ge_iff_le, e1, e2, e3, e4, e5, e6]
  have hup : 97 ≤ v ∧ v ≤ 122 := ⟨UInt32.le_iff_toNat_le.2 h1, UInt32.le_iff_toNat_le.2 h2⟩
  rw [dif_pos hup]
  by_cases h : 65 ≤ u ∧ u ≤ 90
  · rw [dif_pos h]
    simp only [Char.mk.injEq]
    obtain ⟨g1, g2⟩ := h
    rw [UInt32.le_iff_toNat_le] at g1 g2
    simp only [← UInt32.toNat_inj, UInt32.toNat_add, UInt32.toNat_ofNat] at g1 g2 ⊢
    omega
  · rw [dif_neg h]
    simp only [Char.mk.injEq]
    simp only [UInt32.le_iff_toNat_le] at h
    simp only [← UInt32.toNat_inj, UInt32.toNat_add, UInt32.toNat_ofNat] at h ⊢
    omega

theorem lowercase_iff (e : List Char) (w : String) (hw : ∀ d ∈ w.toList, 97 ≤ d.toNat ∧ d.toNat ≤ 122) :
    toLowercase e = w.toList ↔ AnyCase e w := by
  unfold toLowercase AnyCase
  generalize w.toList = ds at hw
  induction e generalizing ds with
  | nil => cases ds <;> simp
  | cons c e ih =>
    cases ds with
    | nil => simp
    | cons d ds =>
      simp only [List.map_cons, List.cons.injEq, List.forall₂_cons]
      rw [ih ds (fun x hx => hw x (by simp [hx])), toLower_eq (hw d (by simp)).1 (hw d (by simp)).2]

theorem lookup_eq {name e : List Char} (h : NamedWith name e) :
    (AnyCase e "las" → getExtensionLookup name = .ok .las) ∧ (AnyCase e "laz" → getExtensionLookup name = .ok .las) ∧
    (AnyCase e "pnts" → getExtensionLookup name = .ok .tiles3d) ∧
    (¬ AnyCase e "las" → ¬ AnyCase e "laz" → ¬ AnyCase e "pnts" → getExtensionLookup name = .error .err) := by
  obtain ⟨hd, stem, hs, hn⟩ := h
  have i1 := lowercase_iff e "las" (by decide)
  have i2 := lowercase_iff e "laz" (by decide)
  have i3 := lowercase_iff e "pnts" (by decide)
  rw [← i1, ← i2, ← i3]
  by_cases he : e = []
  · subst he
    have hne : toLowercase [] ≠ "las".toList ∧ toLowercase [] ≠ "laz".toList ∧ toLowercase [] ≠ "pnts".toList := by
      decide
    refine ⟨fun h => absurd h hne.1, fun h => absurd h hne.2.1, fun h => absurd h hne.2.2, fun _ _ _ => ?_⟩
    unfold getExtensionLookup
    cases hx : extension name with
    | none => rfl
    | some x =>
      show (if toLowercase x = "las".toList ∨ toLowercase x = "laz".toList then _ else _) = _
      obtain ⟨hd', stem', hs', hn'⟩ := extension_some hx
      have hx0 : x = [] := by
        have hr := congrArg List.reverse (hn'.symm.trans hn)
        simp only [List.reverse_append, List.reverse_cons, List.append_assoc, List.reverse_nil, List.nil_append] at hr
        cases hxr : x.reverse with
        | nil => simpa using hxr
        | cons c cs =>
          rw [hxr] at hr
          injection hr with hc _
          exact absurd (by rw [← List.mem_reverse, hxr, hc]; simp) hd'
      subst hx0
      rw [if_neg (not_or.2 ⟨hne.1, hne.2.1⟩), if_neg hne.2.2]
  · have hx : getExtensionLookup name = if toLowercase e = "las".toList ∨ toLowercase e = "laz".toList then .ok .las
        else if toLowercase e = "pnts".toList then .ok .tiles3d else .error .err := by
      unfold getExtensionLookup
      rw [hn, extension_eq hs hd he]
      rfl
    rw [hx]
    refine ⟨fun h => by rw [if_pos (.inl h)], fun h => by rw [if_pos (.inr h)], fun h => ?_, fun a b c => ?_⟩
    · rw [h]; rfl
    · rw [if_neg (not_or.2 ⟨a, b⟩), if_neg c]

/-- C49, first half: `las` and `laz` in any case are LAS, `pnts` in any case is 3D Tiles, and every other
    extension is an error; the extension is what follows the last dot. -/
theorem C49_formats (name e : List Char) (h : NamedWith name e) :
    (AnyCase e "las" ∨ AnyCase e "laz" → getExtensionLookup name = .ok .las) ∧
    (AnyCase e "pnts" → getExtensionLookup name = .ok .tiles3d) ∧
    (¬ AnyCase e "las" → ¬ AnyCase e "laz" → ¬ AnyCase e "pnts" →
      getExtensionLookup name = .error .err ∧ openFile name = .error .err) := by
  obtain ⟨a, b, c, d⟩ := lookup_eq h
  refine ⟨fun h => h.elim a b, c, fun x y z => ⟨d x y z, ?_⟩⟩
  unfold openFile
  rw [d x y z]
  rfl

/-- Names without an extension are an error. -/
theorem C49_no_extension (name : List Char) (h : ∀ e, ¬ NamedWith name e) : openFile name = .error .err := by
  unfold openFile getExtensionLookup
  cases hx : extension name with
  | none => rfl
  | some e => exact absurd (extension_some hx) (h e)

theorem openFile_laz {name e : List Char} (h : NamedWith name e) (hz : AnyCase e "laz") :
    openFile name = .ok (if e = "laz".toList then .laz else .las) := by
  have hl := (lookup_eq h).2.1 hz
  obtain ⟨hd, stem, hs, hn⟩ := h
  have he : e ≠ [] := by rintro rfl; cases hz
  unfold openFile
  rw [hl]
  show (pathIsCompressedLasFile name).bind _ = _
  unfold pathIsCompressedLasFile
  rw [hn, extension_eq hs hd he]
  by_cases hc : e = "laz".toList
  · simp only [hc, decide_true, if_true]; rfl
  · simp only [hc, decide_false, if_false]; rfl

/-- **C49 in part**, second half: `.laz` in lower case is opened as compressed, `.las` in any case as
    uncompressed, `.pnts` in any case as 3D Tiles. Missing: `.laz` in another case (`C49_violated`). -/
theorem C49_compressed_partial (name e : List Char) (h : NamedWith name e) :
    (e = "laz".toList → openFile name = .ok .laz) ∧ (AnyCase e "las" → openFile name = .ok .las) ∧
    (AnyCase e "pnts" → openFile name = .ok .pnts) := by
  refine ⟨?_, ?_, ?_⟩
  · intro he
    rw [openFile_laz h (by rw [he]; exact (lowercase_iff _ "laz" (by decide)).1 (by decide)), if_pos he]
  · intro hl
    have h1 := (lookup_eq h).1 hl
    obtain ⟨hd, stem, hs, hn⟩ := h
    have he : e ≠ [] := by rintro rfl; cases hl
    have hc : e ≠ "laz".toList := by
      rintro rfl
      exact absurd ((lowercase_iff _ "las" (by decide)).2 hl) (by decide)
    unfold openFile
    rw [h1]
    show (pathIsCompressedLasFile name).bind _ = _
    unfold pathIsCompressedLasFile
    rw [hn, extension_eq hs hd he]
    simp only [hc, decide_false]; rfl
  · intro hp
    unfold openFile
    rw [(lookup_eq h).2.2.1 hp]
    rfl

/-- The part of C49 that does not hold: a `.laz` file in any other spelling, for example `scan.LAZ`, is opened
    as an uncompressed LAS file. -/
theorem C49_violated :
    (∀ name e : List Char, NamedWith name e → AnyCase e "laz" → e ≠ "laz".toList → openFile name = .ok .las) ∧
    AnyCase "LAZ".toList "laz" ∧ openFile "scan.LAZ".toList = .ok .las := by
  refine ⟨fun name e h hz hc => by rw [openFile_laz h hz, if_neg hc],
    (lowercase_iff _ "laz" (by decide)).1 (by decide), by decide⟩

example : NamedWith "a.b.Pnts".toList "Pnts".toList ∧ AnyCase "Pnts".toList "pnts" :=
  ⟨⟨by decide, "a.b".toList, by decide, by decide⟩, (lowercase_iff _ "pnts" (by decide)).1 (by decide)⟩

/-! ## C48 -/

/-- C48: `read_all` on a freshly opened LAS file returns all its points. -/
theorem C48_read_all_las (r : RawLasReader) (recs : List Bytes) (h : Standing r recs 0)
    (hl : Solid r.layout) (hr : r.layout = r.recordsLayout ∨ Readable r.recordsLayout r.layout r.transforms)
    (max : Nat) :
    (∃ b r', readAll VectorBuffer max r (some recs.length) = .ok (b, r') ∧
      ShowsPoints b r.layout (recs.map (freshPoint r))) ∧
    (∃ b r', readAll HashMapBuffer max r (some recs.length) = .ok (b, r') ∧
      ShowsPoints b r.layout (recs.map (freshPoint r))) := by
  constructor
  · obtain ⟨b, r', h1, _, _, _, h5⟩ := read_step (β := VectorBuffer) r recs 0 h hl hr recs.length
    rw [List.drop_zero, List.take_length] at h5
    exact ⟨b, r', h1, h5⟩
  · obtain ⟨b, r', h1, _, _, _, h5⟩ := read_step (β := HashMapBuffer) r recs 0 h hl hr recs.length
    rw [List.drop_zero, List.take_length] at h5
    exact ⟨b, r', h1, h5⟩

theorem readAllInto_length {β : Type} [BorrowedMutBuffer β] [AsMemoryMut β] [ReadTarget β] (r : RawLasReader)
    (recs : List Bytes) (h : Standing r recs 0) {target : PointLayout} (ht : Solid target)
    (hr : target = r.recordsLayout ∨ Readable r.recordsLayout target r.transforms) (b : β)
    (hb : ReadTarget.Consistent b) (qs : List Point) (hq : ShowsPoints b target qs) :
    (qs.length < recs.length → readAllInto b r (some recs.length) = .error .panic) ∧
    (recs.length ≤ qs.length → ∃ b' r', readAllInto b r (some recs.length) = .ok (recs.length, b', r') ∧
      ShowsPoints b' target (readOver r.recordsLayout target r.transforms recs qs)) := by
  constructor
  · intro hs
    have hlen := hq.len_eq
    show PointReader.readInto r b recs.length = _
    show (if len b < recs.length then panicked else _) = _
    rw [if_pos (by omega)]
    rfl
  · intro hs
    obtain ⟨b', r', h1, _, _, _, h5⟩ := las_read_into h ht hr hb hq hs
    rw [List.drop_zero, List.take_length] at h5
    refine ⟨b', r', ?_, h5⟩
    show PointReader.readInto r b recs.length = _
    rw [h1]
    simp

/-- The part of C48 that does not hold: `read_all_into` never appends. A buffer shorter than the file makes it
    panic, and in a longer one the first points are overwritten, its length staying the same. -/
theorem C48_read_all_into_violated (r : RawLasReader) (recs : List Bytes) (h : Standing r recs 0) (hpos : recs ≠ [])
    (target : PointLayout) (ht : Solid target)
    (hr : target = r.recordsLayout ∨ Readable r.recordsLayout target r.transforms) (b : VectorBuffer)
    (hb : VectorConsistent b) (qs : List Point) (hq : ShowsPoints b target qs) :
    (qs.length < recs.length → readAllInto b r (some recs.length) = .error .panic) ∧
    (recs.length ≤ qs.length → ∃ b' r', readAllInto b r (some recs.length) = .ok (recs.length, b', r') ∧
      ShowsPoints b' target (readOver r.recordsLayout target r.transforms recs qs)) ∧
    ¬ ∃ b' r' ps, readAllInto b r (some recs.length) = .ok (recs.length, b', r') ∧
      ShowsPoints b' target (qs ++ ps) ∧ ps.length = recs.length := by
  obtain ⟨h1, h2⟩ := readAllInto_length r recs h ht hr b hb qs hq
  refine ⟨h1, h2, ?_⟩
  rintro ⟨b', r', ps, g1, g2, g3⟩
  have hp := List.length_pos_of_ne_nil hpos
  by_cases hs : qs.length < recs.length
  · rw [h1 hs] at g1
    cases g1
  · obtain ⟨b'', r'', k1, k2⟩ := h2 (by omega)
    rw [k1] at g1
    simp only [Except.ok.injEq, Prod.mk.injEq, true_and] at g1
    rw [g1.1] at k2
    have := k2.len_eq.symm.trans g2.len_eq
    rw [readOver_length, List.length_append] at this
    omega

end Pasture.Props
