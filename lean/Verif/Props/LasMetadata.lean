import Verif.Spec.LasMetadata
import Verif.Lemmas.Numbers
import Verif.Props.LasRecords
import Mathlib.Data.List.TakeWhile

/-! # C44, C45, C46, C67: text fields and extra bytes -/

namespace Pasture.Props

open Las Spec

/-! ## C46 -/

theorem ofBitVec_map (b : Bytes) : (b.map UInt8.ofBitVec).map UInt8.toBitVec = b := by
  rw [List.map_map]; exact List.map_id b

theorem toBitVec_map (b : List UInt8) : (b.map UInt8.toBitVec).map UInt8.ofBitVec = b := by
  rw [List.map_map]; exact List.map_id b

theorem fromUtf8_eq (b : Bytes) (s : String) : fromUtf8 b = some s ↔ utf8 s = b := by
  unfold fromUtf8 utf8 String.fromUTF8?
  constructor
  · intro h
    split at h
    · rw [Option.some.injEq] at h
      subst h
      exact ofBitVec_map b
    · exact absurd h (by simp)
  · intro h
    subst h
    rw [toBitVec_map]
    obtain ⟨⟨⟨l⟩⟩, hv⟩ := s
    rw [dif_pos hv]
    rfl

theorem fromUtf8_utf8 (s : String) : fromUtf8 (utf8 s) = some s := (fromUtf8_eq _ _).2 rfl

theorem lasString_eq (field : Bytes) :
    lasStringToRustString field = orErr (fromUtf8 (field.takeWhile (· ≠ 0))) := by
  unfold lasStringToRustString
  cases h : field.findIdx? (· = 0) with
  | none =>
    have : field.takeWhile (· ≠ 0) = field := by
      rw [List.takeWhile_eq_self_iff]
      intro x hx
      have := List.findIdx?_eq_none_iff.1 h x hx
      simpa using this
    rw [this]
  | some i =>
    obtain ⟨hlt, h1, h2⟩ := List.findIdx?_eq_some_iff_getElem.1 h
    have : field.takeWhile (· ≠ 0) = field.take i := by
      have hsplit : field = field.take i ++ field.drop i := (List.take_append_drop i field).symm
      conv_lhs => rw [hsplit]
      rw [List.takeWhile_append_of_pos]
      · rw [List.drop_eq_getElem_cons hlt, List.takeWhile_cons_of_neg (by simpa using h1), List.append_nil]
      · intro x hx
        obtain ⟨j, hj, rfl⟩ := List.mem_iff_getElem.1 hx
        rw [List.length_take] at hj
        have := h2 j (by omega)
        rw [List.getElem_take]
        simpa using this
    rw [this]
    show (sliceGet field 0 i).bind _ = _
    unfold sliceGet
    rw [if_pos ⟨Nat.zero_le _, Nat.le_of_lt hlt⟩]
    rfl

theorem writeRustString_eq (s : String) (n : Nat) :
    writeRustString s (zeros n) = .ok (if (utf8 s).length ≥ n then (utf8 s).take n else textField s n) := by
  have hz : (zeros n).length = n := List.length_replicate ..
  unfold writeRustString
  rw [hz]
  by_cases h : (utf8 s).length ≥ n
  · rw [if_pos h, if_pos h]
    show (sliceGet (utf8 s) 0 n).bind _ = _
    unfold sliceGet
    rw [if_pos ⟨Nat.zero_le _, h⟩]
    show copyFromSlice (zeros n) _ = _
    unfold copyFromSlice
    rw [if_pos (by rw [hz]; simp; omega)]
    rfl
  · rw [if_neg h, if_neg h]
    unfold slicePut
    rw [if_pos ⟨Nat.zero_le _, by omega, rfl⟩]
    congr 1
    unfold put textField zeros
    simp

/-- What the field contains when the text fits. -/
theorem writeRustString_fits {s : String} {n : Nat} (h : TextFits s n) :
    writeRustString s (zeros n) = .ok (textField s n) := by
  rw [writeRustString_eq]
  split
  · rename_i h2
    have : (utf8 s).length = n := by have := h.1; omega
    unfold textField zeros
    rw [List.take_of_length_le (by omega)]
    simp [this]
  · rfl

theorem lasString_textField {s : String} {n : Nat} (h : TextFits s n) :
    lasStringToRustString (textField s n) = .ok s := by
  rw [lasString_eq]
  have : (textField s n).takeWhile (· ≠ 0) = utf8 s := by
    unfold textField
    rw [List.takeWhile_append_of_pos]
    · cases hk : n - (utf8 s).length with
      | zero => simp [zeros]
      | succ k => simp [zeros, List.replicate_succ]
    · intro x hx
      have : x ≠ 0 := fun h0 => h.2 (h0 ▸ hx)
      simpa using this
  rw [this, fromUtf8_utf8]
  rfl

theorem textField_length {s : String} {n : Nat} (h : TextFits s n) : (textField s n).length = n := by
  unfold textField zeros
  have := h.1
  simp
  omega

/-- **C46**: a text without NUL of at most `n` bytes survives being written into a field of `n` bytes and
    read again. -/
theorem C46_roundtrip (s : String) (n : Nat) (h : TextFits s n) :
    ∃ field, writeRustString s (zeros n) = .ok field ∧ field.length = n ∧
      lasStringToRustString field = .ok s :=
  ⟨_, writeRustString_fits h, textField_length h, lasString_textField h⟩

/-- **C46 in part**: a longer text is cut after `n` bytes, and reads back as that prefix if the cut is
    between two characters. Missing: cuts inside a character (`C46_cut_violated`). -/
theorem C46_cut_partial (t rest : String) (n : Nat) (hn : (utf8 t).length = n) (h0 : (0 : Byte) ∉ utf8 t)
    (s : String) (hs : utf8 s = utf8 t ++ utf8 rest) :
    ∃ field, writeRustString s (zeros n) = .ok field ∧ field.length = n ∧
      lasStringToRustString field = .ok t := by
  have hf : TextFits t n := ⟨by omega, h0⟩
  refine ⟨textField t n, ?_, textField_length hf, lasString_textField hf⟩
  rw [writeRustString_eq, hs, if_pos (by simp; omega), List.take_append_of_le_length (by omega),
    List.take_of_length_le (by omega)]
  unfold textField zeros
  simp [hn]

/-- **C46 in part**: whatever is read back from the field of a longer text is a prefix of it. -/
theorem C46_prefix_partial (s t : String) (n : Nat) (field : Bytes)
    (hw : writeRustString s (zeros n) = .ok field) (hr : lasStringToRustString field = .ok t)
    (hlong : n ≤ (utf8 s).length) : utf8 t <+: utf8 s := by
  rw [writeRustString_eq, if_pos hlong] at hw
  injection hw with hw
  rw [lasString_eq] at hr
  cases hu : fromUtf8 (field.takeWhile (· ≠ 0)) with
  | none => rw [hu] at hr; cases hr
  | some t' =>
    rw [hu] at hr
    injection hr with hr
    subst hr
    rw [(fromUtf8_eq _ _).1 hu, ← hw]
    exact (List.takeWhile_prefix _).trans (List.take_prefix _ _)

/-- **C46 violated**: a longer text that is cut inside a character cannot be read back at all. The text
    is 31 times `a` and then `ä`, for the 32 byte fields of extra bytes records. -/
theorem C46_cut_violated :
    ∃ s field, (0 : Byte) ∉ utf8 s ∧ writeRustString s (zeros 32) = .ok field ∧
      lasStringToRustString field = .error .err :=
  ⟨"aaaaaaaaaaaaaaaaaaaaaaaaaaaaaaaä", _, by decide +kernel, rfl, by decide +kernel⟩

/-- Non-vacuity: a text of 31 bytes with a two byte character in a 32 byte field, and one that fills it. -/
example : TextFits "Größe über Grund" 32 ∧ TextFits "aaaaaaaaaaaaaaaaaaaaaaaaaaaaaaaa" 32 := by decide +kernel
example : utf8 "Größe" = utf8 "Grö" ++ utf8 "ße" ∧ (utf8 "Grö").length = 4 := by decide +kernel

/-! ## C44 -/

/-- **C44**: data type codes survive the way to a type and back. -/
theorem C44_type_codes (v : BitVec 8) : (ExtraType.ofU8 v).toU8 = v := by
  revert v; decide +kernel

/-- **C44**: a type survives the way to its code and back if its code is in the right class. -/
theorem C44_types (t : ExtraType) : ExtraType.ofU8 t.toU8 = t ↔ TypeFits t := by
  cases t with
  | deprecated v => revert v; decide +kernel
  | reserved v => revert v; decide +kernel
  | _ => decide

/-- The raw record of an entry. -/
def rawEntryOf (e : ExtraEntry) : RawEntry := { RawEntry.default with
  dataType := e.dataType.toU8, options := e.options, noData := e.noDataValue, min := e.minValue,
  max := e.maxValue, scale := e.scale, offset := e.offset, name := textField e.name 32,
  description := textField e.description 32 }

theorem rawOfEntry_eq {e : ExtraEntry} (h : EntryFits e) : rawOfEntry e = .ok (rawEntryOf e) := by
  unfold rawOfEntry
  simp only [RawEntry.default]
  rw [writeRustString_fits h.name, writeRustString_fits h.description]
  rfl

theorem leNat_singleton (b : Byte) : leNat [b] = b.toNat := by simp [leNat]

theorem rawEntry_length {e : ExtraEntry} (h : EntryFits e) : (rawEntryOf e).bytes.length = 192 := by
  have h1 := textField_length h.name
  have h2 := textField_length h.description
  simp [rawEntryOf, RawEntry.bytes, RawEntry.default, h1, h2, h.min, h.max, h.noData, natLE_length, zeros]

/-- In fields that follow each other each one lies behind the ones before it. -/
theorem window_slot {fs : List Bytes} {k : Nat} {x : Bytes} (hk : fs[k]? = some x) {o n : Nat}
    (ho : ((fs.take k).map List.length).sum = o) (hn : x.length = n) : (fs.flatten.drop o).take n = x := by
  induction fs generalizing k o with
  | nil => simp at hk
  | cons f fs ih =>
    cases k with
    | zero =>
      simp only [List.getElem?_cons_zero, Option.some.injEq] at hk
      simp only [List.take_zero, List.map_nil, List.sum_nil] at ho
      subst hk ho hn
      simp
    | succ k =>
      simp only [List.getElem?_cons_succ] at hk
      simp only [List.take_succ_cons, List.map_cons, List.sum_cons] at ho
      rw [List.flatten_cons, ← ho, List.drop_append, List.drop_eq_nil_of_le (by omega), List.nil_append,
        Nat.add_sub_cancel_left]
      exact ih hk rfl

/-- The fields of a raw entry. -/
def RawFields (r : RawEntry) : List Bytes :=
  [r.reserved, [r.dataType], [r.options], r.name, r.unused, r.noData, r.deprecated1, r.min, r.deprecated2,
   r.max, r.deprecated3, natLE 8 r.scale.toNat, r.deprecated4, natLE 8 r.offset.toNat, r.deprecated5,
   r.description]

theorem rawFields_flatten (r : RawEntry) : r.bytes = (RawFields r).flatten := by
  unfold RawEntry.bytes RawFields
  simp only [List.flatten_cons, List.flatten_nil, List.append_nil, List.append_assoc]

theorem rawFields_lengths {e : ExtraEntry} (h : EntryFits e) :
    (RawFields (rawEntryOf e)).map List.length = [2, 1, 1, 32, 4, 8, 16, 8, 16, 8, 16, 8, 16, 8, 16, 32] := by
  have h1 := textField_length h.name
  have h2 := textField_length h.description
  simp only [RawFields, rawEntryOf, RawEntry.default, List.map_cons, List.map_nil, h1, h2, h.min, h.max,
    h.noData, natLE_length, zeros, List.length_replicate, List.length_singleton]

theorem raw_slot {e : ExtraEntry} (h : EntryFits e) {k : Nat} {x : Bytes}
    (hk : (RawFields (rawEntryOf e))[k]? = some x) {o n : Nat}
    (ho : (([2, 1, 1, 32, 4, 8, 16, 8, 16, 8, 16, 8, 16, 8, 16, 32] : List Nat).take k).sum = o)
    (hn : ([2, 1, 1, 32, 4, 8, 16, 8, 16, 8, 16, 8, 16, 8, 16, 32] : List Nat)[k]? = some n) :
    ((rawEntryOf e).bytes.drop o).take n = x := by
  rw [rawFields_flatten]
  refine window_slot hk ?_ ?_
  · rw [List.map_take, rawFields_lengths h]; exact ho
  · have := congrArg (fun l => l[k]?) (rawFields_lengths h)
    simp only [List.getElem?_map, hk, hn, Option.map_some, Option.some.injEq] at this
    exact this

/-- **C44**: the binary form of an entry is the record of the LAS standard. -/
theorem C44_binary_form (e : ExtraEntry) (h : EntryFits e) :
    ∃ r, rawOfEntry e = .ok r ∧ r.bytes.length = 192 ∧
      ∀ p ∈ extraRecord e, window r.bytes p.1 p.2.length = p.2 := by
  refine ⟨_, rawOfEntry_eq h, rawEntry_length h, ?_⟩
  intro p hp
  obtain ⟨k, hk⟩ := List.mem_iff_getElem?.1 hp
  have hfields : (extraRecord e).map (·.2) = RawFields (rawEntryOf e) := rfl
  have hoffs : (extraRecord e).map (·.1) =
      (List.range 16).map fun k => (([2, 1, 1, 32, 4, 8, 16, 8, 16, 8, 16, 8, 16, 8, 16, 32] : List Nat).take k).sum := by
    rfl
  have hk16 : k < 16 := by
    have := (List.getElem?_eq_some_iff.1 hk).1
    exact this
  have h1 : (RawFields (rawEntryOf e))[k]? = some p.2 := by
    rw [← hfields, List.getElem?_map, hk]; rfl
  have h2 := congrArg (fun l => l[k]?) (rawFields_lengths h)
  simp only [List.getElem?_map, h1, Option.map_some] at h2
  have h3 := congrArg (fun l => l[k]?) hoffs
  simp only [List.getElem?_map, hk, Option.map_some, List.getElem?_range hk16, Option.some.injEq] at h3
  exact raw_slot h h1 h3.symm h2.symm

theorem rawEntry_ofBytes {e : ExtraEntry} (h : EntryFits e) :
    RawEntry.ofBytes (rawEntryOf e).bytes = rawEntryOf e := by
  have hb : ∀ b : Byte, BitVec.ofNat 8 (leNat [b]) = b := by
    intro b; rw [leNat_singleton]; rw [BitVec.ofNat_toNat, BitVec.setWidth_eq]
  have hw : ∀ b : BitVec 64, BitVec.ofNat 64 (leNat (natLE 8 b.toNat)) = b := by
    intro b
    rw [leNat_natLE, Nat.mod_eq_of_lt b.isLt]
    rw [BitVec.ofNat_toNat, BitVec.setWidth_eq]
  unfold RawEntry.ofBytes
  rw [raw_slot h (k := 0) (o := 0) rfl rfl rfl, raw_slot h (k := 1) (o := 2) rfl rfl rfl, raw_slot h (k := 2) (o := 3) rfl rfl rfl,
    raw_slot h (k := 3) (o := 4) rfl rfl rfl, raw_slot h (k := 4) (o := 36) rfl rfl rfl, raw_slot h (k := 5) (o := 40) rfl rfl rfl,
    raw_slot h (k := 6) (o := 48) rfl rfl rfl, raw_slot h (k := 7) (o := 64) rfl rfl rfl, raw_slot h (k := 8) (o := 72) rfl rfl rfl,
    raw_slot h (k := 9) (o := 88) rfl rfl rfl, raw_slot h (k := 10) (o := 96) rfl rfl rfl, raw_slot h (k := 11) (o := 112) rfl rfl rfl,
    raw_slot h (k := 12) (o := 120) rfl rfl rfl, raw_slot h (k := 13) (o := 136) rfl rfl rfl, raw_slot h (k := 14) (o := 144) rfl rfl rfl,
    raw_slot h (k := 15) (o := 160) rfl rfl rfl, hb, hb, hw, hw]

theorem entryOfRaw_eq {e : ExtraEntry} (h : EntryFits e) : entryOfRaw (rawEntryOf e) = .ok e := by
  unfold entryOfRaw rawEntryOf
  dsimp only
  rw [lasString_textField h.name, lasString_textField h.description]
  show Except.ok _ = Except.ok _
  rw [(C44_types _).2 h.type]

theorem mapM_ok {α β : Type} {f : α → Out β} {g : α → β} {xs : List α} (h : ∀ x ∈ xs, f x = .ok (g x)) :
    xs.mapM f = .ok (xs.map g) := by
  induction xs with
  | nil => rfl
  | cons x xs ih =>
    rw [List.mapM_cons, h x (by simp), ih fun y hy => h y (by simp [hy])]
    rfl

theorem mapM_ok_mem {α β : Type} {f : α → Out β} {xs : List α} {ys : List β} (h : xs.mapM f = .ok ys) :
    ∀ y ∈ ys, ∃ x ∈ xs, f x = .ok y := by
  induction xs generalizing ys with
  | nil => injection h with h; subst h; intro y hy; simp at hy
  | cons x xs ih =>
    rw [List.mapM_cons] at h
    cases hx : f x with
    | error e => rw [hx] at h; cases h
    | ok y =>
      rw [hx] at h
      cases hxs : xs.mapM f with
      | error e => rw [hxs] at h; cases h
      | ok zs =>
        rw [hxs] at h
        injection h with h
        subst h
        intro z hz
        rcases List.mem_cons.1 hz with rfl | hz
        · exact ⟨x, by simp, hx⟩
        · obtain ⟨w, hw, hf⟩ := ih hxs z hz
          exact ⟨w, by simp [hw], hf⟩

/-- Records of equal length laid end to end, looked at one by one. -/
theorem records_of_flatMap {α : Type} (f : α → Bytes) (size : Nat) (hpos : 0 < size) (xs : List α)
    (h : ∀ x ∈ xs, (f x).length = size) :
    (xs.flatMap f).length = xs.length * size ∧
    (List.range ((xs.flatMap f).length / size)).map (fun i => ((xs.flatMap f).drop (i * size)).take size)
      = xs.map f := by
  have hlen : (xs.flatMap f).length = xs.length * size := by
    induction xs with
    | nil => simp
    | cons x xs ih =>
      rw [List.flatMap_cons, List.length_append, h x (by simp), ih fun y hy => h y (by simp [hy]),
        List.length_cons, Nat.succ_mul, Nat.add_comm]
  refine ⟨hlen, ?_⟩
  rw [hlen]
  show (List.range (xs.length * size / size)).map _ = _
  rw [Nat.mul_div_cancel _ hpos]
  clear hlen
  induction xs with
  | nil => rfl
  | cons x xs ih =>
    have ih := ih fun y hy => h y (by simp [hy])
    have hx := h x (by simp)
    rw [List.length_cons, List.range_succ_eq_map, List.map_cons, List.map_map, List.map_cons, ← ih]
    congr 1
    · rw [List.flatMap_cons, Nat.zero_mul, List.drop_zero, ← hx, List.take_left']
      rfl
    · apply List.map_congr_left
      intro i _
      simp only [Function.comp]
      rw [List.flatMap_cons, List.drop_append, List.drop_eq_nil_of_le (by rw [hx, Nat.succ_mul]; omega),
        List.nil_append, hx, Nat.succ_mul, Nat.add_sub_cancel]

theorem lasf_spec : TextFits "LASF_Spec" 16 := by decide +kernel

/-- What the conversion to a VLR gives. -/
theorem vlrOfExtraBytes_eq (entries : List ExtraEntry) (heap : Nat) (h : ∀ e ∈ entries, EntryFits e) :
    vlrOfExtraBytes entries heap =
      if entries.length ≤ 341 then
        .ok ⟨"LASF_Spec", 4, entries.flatMap fun e => (rawEntryOf e).bytes,
          vecAddr (entries.flatMap fun e => (rawEntryOf e).bytes) heap⟩
      else .error .err := by
  have hlen := (records_of_flatMap (fun e => (rawEntryOf e).bytes) 192 (by omega) entries
    fun e he => rawEntry_length (h e he)).1
  unfold vlrOfExtraBytes
  rw [mapM_ok (g := rawEntryOf) fun e he => rawOfEntry_eq (h e he)]
  have e1 : (entries.map rawEntryOf).flatMap RawEntry.bytes = entries.flatMap fun e => (rawEntryOf e).bytes := by
    rw [List.flatMap_map]
  show (assertThat (decide (((entries.map rawEntryOf).flatMap RawEntry.bytes).length % rawEntrySize = 0))).bind _ = _
  rw [e1]
  have e2 : assertThat (decide ((entries.flatMap fun e => (rawEntryOf e).bytes).length % rawEntrySize = 0)) = .ok () := by
    unfold assertThat
    rw [hlen, if_pos]
    simp [rawEntrySize]
  rw [e2, writeRustString_fits lasf_spec]
  simp only [bind, Except.bind, pure, Except.pure, lasString_textField lasf_spec]
  by_cases hc : entries.length ≤ 341
  · rw [if_pos hc]
    have e3 : bailIf (decide ((entries.flatMap fun e => (rawEntryOf e).bytes).length ≥ 2 ^ 16)) = .ok () := by
      unfold bailIf
      rw [hlen, if_neg]
      simp only [Nat.reducePow, decide_eq_true_eq]
      omega
    rw [e3]
    rfl
  · rw [if_neg hc]
    have e3 : bailIf (decide ((entries.flatMap fun e => (rawEntryOf e).bytes).length ≥ 2 ^ 16)) = .error .err := by
      unfold bailIf
      rw [hlen, if_pos]
      simp only [Nat.reducePow, decide_eq_true_eq]
      omega
    rw [e3]

theorem extraBytesOfVlr_eq (entries : List ExtraEntry) (addr : Nat) (h : ∀ e ∈ entries, EntryFits e) :
    extraBytesOfVlr ⟨"LASF_Spec", 4, entries.flatMap fun e => (rawEntryOf e).bytes, addr⟩ =
      if addr % 8 = 0 then .ok entries else panicked := by
  obtain ⟨hlen, hrec⟩ := records_of_flatMap (fun e => (rawEntryOf e).bytes) 192 (by omega) entries
    fun e he => rawEntry_length (h e he)
  unfold extraBytesOfVlr
  show (bailIf (decide ((entries.flatMap fun e => (rawEntryOf e).bytes).length % rawEntrySize ≠ 0))).bind _ = _
  have e1 : bailIf (decide ((entries.flatMap fun e => (rawEntryOf e).bytes).length % rawEntrySize ≠ 0)) = .ok () := by
    unfold bailIf
    rw [hlen, if_neg]
    simp [rawEntrySize]
  rw [e1]
  show (castEntries (entries.flatMap fun e => (rawEntryOf e).bytes) addr).bind _ = _
  unfold castEntries
  by_cases ha : addr % 8 = 0
  · rw [if_neg (by omega), if_pos ha, if_neg (by rw [hlen]; simp [rawEntrySize])]
    have e2 : (List.range ((entries.flatMap fun e => (rawEntryOf e).bytes).length / rawEntrySize)).map
        (fun i => RawEntry.ofBytes (((entries.flatMap fun e => (rawEntryOf e).bytes).drop (i * rawEntrySize)).take rawEntrySize))
        = entries.map rawEntryOf := by
      have := congrArg (List.map RawEntry.ofBytes) hrec
      rw [List.map_map, List.map_map] at this
      refine Eq.trans ?_ (this.trans ?_)
      · rfl
      · apply List.map_congr_left
        intro e he
        exact rawEntry_ofBytes (h e he)
    rw [e2]
    show (entries.map rawEntryOf).mapM entryOfRaw = _
    have key : ∀ es : List ExtraEntry, (∀ e ∈ es, EntryFits e) → (es.map rawEntryOf).mapM entryOfRaw = .ok es := by
      intro es
      induction es with
      | nil => intro _; rfl
      | cons x xs ih =>
        intro hx
        rw [List.map_cons, List.mapM_cons, entryOfRaw_eq (hx x (by simp)), ih fun y hy => hx y (by simp [hy])]
        rfl
    exact key entries h
  · rw [if_pos (by omega), if_neg ha]
    rfl

/-- **C44 in part**: a non-empty list of up to 341 entries (as many as fit a VLR) survives the conversion
    to a VLR and back, if the allocator puts the bytes of the VLR at a multiple of 8. More entries are
    rejected with an error. Missing: the empty list and other addresses, where reading panics
    (`C44_empty_violated`, `C44_unaligned_violated`). -/
theorem C44_roundtrip_partial (entries : List ExtraEntry) (h : ∀ e ∈ entries, EntryFits e) (heap : Nat)
    (hheap : heap % 8 = 0) (hne : entries ≠ []) :
    (entries.length ≤ 341 → ∃ v, vlrOfExtraBytes entries heap = .ok v ∧ v.data.length = 192 * entries.length ∧
      extraBytesOfVlr v = .ok entries) ∧
    (341 < entries.length → vlrOfExtraBytes entries heap = .error .err) := by
  have hlen := (records_of_flatMap (fun e => (rawEntryOf e).bytes) 192 (by omega) entries
    fun e he => rawEntry_length (h e he)).1
  rw [vlrOfExtraBytes_eq entries heap h]
  constructor
  · intro hc
    rw [if_pos hc]
    refine ⟨_, rfl, by rw [hlen]; omega, ?_⟩
    rw [extraBytesOfVlr_eq entries _ h]
    have : entries.flatMap (fun e => (rawEntryOf e).bytes) ≠ [] := by
      intro h0
      have h1 := congrArg List.length h0
      rw [hlen, List.length_nil] at h1
      have h2 : 0 < entries.length := List.length_pos_iff.2 hne
      omega
    rw [vecAddr, if_neg this, if_pos hheap]
  · intro hc
    rw [if_neg (by omega)]

/-- **C44 violated**: a VLR without entries cannot be converted back: the code panics. -/
theorem C44_empty_violated (heap : Nat) :
    ∃ v, vlrOfExtraBytes [] heap = .ok v ∧ extraBytesOfVlr v = panicked := by
  refine ⟨_, vlrOfExtraBytes_eq [] heap (by simp), ?_⟩
  rw [extraBytesOfVlr_eq [] _ (by simp)]
  rfl

/-- **C44 violated**: any list of entries makes the conversion from a VLR panic if its bytes do not happen
    to lie at a multiple of 8, which nothing guarantees for a `Vec<u8>`. -/
theorem C44_unaligned_violated (entries : List ExtraEntry) (h : ∀ e ∈ entries, EntryFits e)
    (hl : entries.length ≤ 341) (v : Vlr) (heap : Nat) (hv : vlrOfExtraBytes entries heap = .ok v) (addr : Nat)
    (ha : addr % 8 ≠ 0) : extraBytesOfVlr { v with dataAddr := addr } = panicked := by
  rw [vlrOfExtraBytes_eq entries heap h, if_pos hl] at hv
  injection hv with hv
  subst hv
  rw [extraBytesOfVlr_eq entries _ h, if_neg ha]

/-- **C44**: a VLR with another user id, another record id or a length that is not a multiple of the
    record size is rejected with an error. -/
theorem C44_malformed (v : Vlr)
    (h : v.userId ≠ "LASF_Spec" ∨ v.recordId ≠ 4 ∨ ¬ 192 ∣ v.data.length) :
    extraBytesOfVlr v = .error .err := by
  unfold extraBytesOfVlr bailIf knownVlrUserId extraBytesRecordId rawEntrySize
  by_cases h1 : v.userId = "LASF_Spec"
  · by_cases h2 : v.recordId = 4
    · have h3 : v.data.length % 192 ≠ 0 := by
        rcases h with h | h | h
        · exact absurd h1 h
        · exact absurd h2 h
        · exact fun h0 => h (Nat.dvd_of_mod_eq_zero h0)
      rw [if_neg (by simpa using h1), if_neg (by simpa using h2), if_pos (by simpa using h3)]
      rfl
    · rw [if_neg (by simpa using h1), if_pos (by simpa using h2)]
      rfl
  · rw [if_pos (by simpa using h1)]
    rfl

theorem lasString_fits {b : Bytes} {s : String} (h : lasStringToRustString b = .ok s) : TextFits s b.length := by
  rw [lasString_eq] at h
  cases hu : fromUtf8 (b.takeWhile (· ≠ 0)) with
  | none => rw [hu] at h; cases h
  | some t =>
    rw [hu] at h
    injection h with h
    subst h
    have := (fromUtf8_eq _ _).1 hu
    constructor
    · rw [this]; exact (List.takeWhile_prefix _).length_le
    · rw [this]
      intro h0
      have := List.mem_takeWhile_imp h0
      simp at this

/-- **C44**: the entries read from a VLR are ones that can be written again, so reading, writing and
    reading again gives the same entries. -/
theorem C44_read_entries_fit (v : Vlr) (entries : List ExtraEntry) (h : extraBytesOfVlr v = .ok entries) :
    192 * entries.length = v.data.length ∧ ∀ e ∈ entries, EntryFits e := by
  have hlen : 192 ∣ v.data.length := by
    by_contra hc
    rw [C44_malformed v (.inr (.inr hc))] at h
    cases h
  have hu : v.userId = "LASF_Spec" := by
    by_contra hc
    rw [C44_malformed v (.inl hc)] at h
    cases h
  have hr : v.recordId = 4 := by
    by_contra hc
    rw [C44_malformed v (.inr (.inl hc))] at h
    cases h
  unfold extraBytesOfVlr bailIf at h
  rw [if_neg (by rw [hu]; decide), if_neg (by rw [hr]; decide),
    if_neg (by rw [decide_eq_true_eq, not_not]; exact Nat.mod_eq_zero_of_dvd hlen)] at h
  change (castEntries v.data v.dataAddr).bind _ = _ at h
  unfold castEntries at h
  split at h
  · cases h
  · split at h
    · cases h
    · change List.mapM entryOfRaw _ = _ at h
      constructor
      · have key : ∀ (xs : List RawEntry) ys, xs.mapM entryOfRaw = .ok ys → ys.length = xs.length := by
          intro xs
          induction xs with
          | nil => intro ys h; injection h with h; subst h; rfl
          | cons x xs ih =>
            intro ys h
            rw [List.mapM_cons] at h
            cases hx : entryOfRaw x with
            | error e => rw [hx] at h; cases h
            | ok y =>
              rw [hx] at h
              cases hxs : xs.mapM entryOfRaw with
              | error e => rw [hxs] at h; cases h
              | ok zs =>
                rw [hxs] at h
                injection h with h
                subst h
                simp [ih _ hxs]
        have := key _ _ h
        rw [List.length_map, List.length_range] at this
        rw [this]
        exact Nat.mul_div_cancel' hlen
      · intro e he
        obtain ⟨r, hr, hf⟩ := mapM_ok_mem h e he
        obtain ⟨i, hi, rfl⟩ := List.mem_map.1 hr
        have hi : (i + 1) * 192 ≤ v.data.length := by
          have := List.mem_range.1 hi
          unfold rawEntrySize at this
          omega
        have hb : ((v.data.drop (i * rawEntrySize)).take rawEntrySize).length = 192 := by
          rw [List.length_take, List.length_drop]
          unfold rawEntrySize
          omega
        generalize (v.data.drop (i * rawEntrySize)).take rawEntrySize = b at hb hf
        unfold entryOfRaw at hf
        cases hd : lasStringToRustString (RawEntry.ofBytes b).description with
        | error e => rw [hd] at hf; cases hf
        | ok d =>
          rw [hd] at hf
          cases hn : lasStringToRustString (RawEntry.ofBytes b).name with
          | error e => rw [hn] at hf; cases hf
          | ok n =>
            rw [hn] at hf
            injection hf with hf
            subst hf
            have w : ∀ o k, o + k ≤ 192 → ((b.drop o).take k).length = k := by
              intro o k hk
              rw [List.length_take, List.length_drop]
              omega
            refine ⟨?_, ?_, ?_, w 64 8 (by omega), w 88 8 (by omega), w 40 8 (by omega)⟩
            · rw [← C44_types]
              exact congrArg ExtraType.ofU8 (C44_type_codes _)
            · have := lasString_fits hn
              rwa [show (RawEntry.ofBytes b).name.length = 32 from w 4 32 (by omega)] at this
            · have := lasString_fits hd
              rwa [show (RawEntry.ofBytes b).description.length = 32 from w 160 32 (by omega)] at this

/-- An entry as the builder makes it. -/
def sampleEntry : ExtraEntry :=
  withNoData (withMax (withMin (withScale (buildEntry .u16 "Höhe" "height above ground") 0x3f847ae147ae147b)
    [1, 0, 0, 0, 0, 0, 0, 0]) [9, 0, 0, 0, 0, 0, 0, 0]) [255, 255, 0, 0, 0, 0, 0, 0]

/-- Non-vacuity: a list of two entries, and an aligned address. -/
theorem sampleEntry_fits : EntryFits sampleEntry :=
  ⟨trivial, by decide +kernel, by decide +kernel, rfl, rfl, rfl⟩

example : ∃ v, vlrOfExtraBytes [sampleEntry, sampleEntry] 4096 = .ok v ∧
    extraBytesOfVlr v = .ok [sampleEntry, sampleEntry] := by
  have := (C44_roundtrip_partial [sampleEntry, sampleEntry] (by simp [sampleEntry_fits]) 4096 rfl (by simp)).1
    (by simp)
  obtain ⟨v, h1, -, h2⟩ := this
  exact ⟨v, h1, h2⟩

/-! ## C45 -/

/-- **C45**: the unsigned and signed accessors succeed exactly for unsigned and signed data types, and
    give the 64 bits that are stored. -/
theorem C45_integers (e : ExtraEntry) :
    (e.minAsUnsigned = if e.dataType.isUnsigned then .ok (ExtraEntry.bits64 e.minValue) else .error .err) ∧
    (e.maxAsUnsigned = if e.dataType.isUnsigned then .ok (ExtraEntry.bits64 e.maxValue) else .error .err) ∧
    (e.noDataAsUnsigned = if e.dataType.isUnsigned then .ok (ExtraEntry.bits64 e.noDataValue) else .error .err) ∧
    (e.minAsSigned = if e.dataType.isSigned then .ok (ExtraEntry.bits64 e.minValue) else .error .err) ∧
    (e.maxAsSigned = if e.dataType.isSigned then .ok (ExtraEntry.bits64 e.maxValue) else .error .err) ∧
    (e.noDataAsSigned = if e.dataType.isSigned then .ok (ExtraEntry.bits64 e.noDataValue) else .error .err) := by
  unfold ExtraEntry.minAsUnsigned ExtraEntry.maxAsUnsigned ExtraEntry.noDataAsUnsigned ExtraEntry.minAsSigned
    ExtraEntry.maxAsSigned ExtraEntry.noDataAsSigned bailIf
  refine ⟨?_, ?_, ?_, ?_, ?_, ?_⟩ <;> cases e.dataType <;> rfl

/-- **C45 violated**: the float accessors fail for every entry with a float data type, and succeed for
    unsigned integers. -/
theorem C45_float_violated (e : ExtraEntry) :
    (e.dataType.isFloatingPoint = true →
      e.minAsFloat = .error .err ∧ e.maxAsFloat = .error .err ∧ e.noDataAsFloat = .error .err) ∧
    (e.dataType.isUnsigned = true →
      e.minAsFloat = .ok (ExtraEntry.bits64 e.minValue) ∧ e.maxAsFloat = .ok (ExtraEntry.bits64 e.maxValue) ∧
      e.noDataAsFloat = .ok (ExtraEntry.bits64 e.noDataValue)) := by
  unfold ExtraEntry.minAsFloat ExtraEntry.maxAsFloat ExtraEntry.noDataAsFloat bailIf
  cases e.dataType <;> simp [ExtraType.isFloatingPoint, ExtraType.isUnsigned]

/-- **C45 violated**: the accessors ignore the option bits: they give a value even if the entry has none. -/
theorem C45_option_bits_violated :
    ∃ e : ExtraEntry, optionSet e.options minBit = false ∧ e.minAsUnsigned = .ok 0 :=
  ⟨buildEntry .u8 "a" "", by decide, by decide⟩

/-- Whether one of the three values is shown. -/
def anyValueRelevant (e : ExtraEntry) : Bool :=
  optionSet e.options minBit || optionSet e.options maxBit || optionSet e.options noDataBit

/-- **C45 violated**: printing an entry panics exactly if it has a float data type and one of the three
    values. -/
theorem C45_display_violated (e : ExtraEntry) :
    displayEntry e = panicked ↔ e.dataType.isFloatingPoint = true ∧ anyValueRelevant e = true := by
  unfold displayEntry anyValueRelevant
  obtain ⟨hf, -⟩ := C45_float_violated e
  obtain ⟨h1, h2, h3, h4, h5, h6⟩ := C45_integers e
  rw [h1, h2, h3, h4, h5, h6]
  generalize optionSet e.options minBit = a
  generalize optionSet e.options maxBit = b
  generalize optionSet e.options noDataBit = c
  cases ht : e.dataType.isFloatingPoint with
  | true =>
    obtain ⟨f1, f2, f3⟩ := hf ht
    rw [f1, f2, f3]
    unfold showValue
    rw [ht]
    cases a <;> cases b <;> cases c <;> simp [unwrap, panicked, pure, Except.pure, bind, Except.bind]
  | false =>
    simp only [Bool.false_eq_true, false_and, iff_false]
    unfold showValue
    rw [ht]
    cases hs : e.dataType.isSigned <;> cases hu : e.dataType.isUnsigned <;>
      cases a <;> cases b <;> cases c <;> exact (by intro h; cases h)

/-- **C45 in part**: printing an entry with an integer data type shows its values if they are relevant.
    Missing: float data types. -/
theorem C45_display_partial (e : ExtraEntry) (h : e.dataType.isSigned = true ∨ e.dataType.isUnsigned = true) :
    let shown := fun b => if e.dataType.isSigned then Shown.signed (ExtraEntry.bits64 b)
      else Shown.unsigned (ExtraEntry.bits64 b)
    displayEntry e = .ok (
      if optionSet e.options minBit then some (shown e.minValue) else none,
      if optionSet e.options maxBit then some (shown e.maxValue) else none,
      if optionSet e.options noDataBit then some (shown e.noDataValue) else none) := by
  dsimp only
  unfold displayEntry
  obtain ⟨h1, h2, h3, h4, h5, h6⟩ := C45_integers e
  rw [h1, h2, h3, h4, h5, h6]
  generalize optionSet e.options minBit = a
  generalize optionSet e.options maxBit = b
  generalize optionSet e.options noDataBit = c
  have ht : e.dataType.isFloatingPoint = false := by
    revert h; cases e.dataType <;> simp [ExtraType.isSigned, ExtraType.isUnsigned, ExtraType.isFloatingPoint]
  unfold showValue
  rw [ht]
  rcases h with h | h
  · rw [h]; cases a <;> cases b <;> cases c <;> rfl
  · have hs : e.dataType.isSigned = false := by
      revert h; cases e.dataType <;> simp [ExtraType.isSigned, ExtraType.isUnsigned]
    rw [h, hs]; cases a <;> cases b <;> cases c <;> rfl

/-- **C45 violated**: for a data type without documented meaning the printed no-data value is the minimum. -/
theorem C45_no_data_violated :
    ∃ e : ExtraEntry, e.noDataValue = [7, 0, 0, 0, 0, 0, 0, 0] ∧ optionSet e.options noDataBit = true ∧
      displayEntry e = .ok (none, none, some (.raw (zeros 8))) :=
  ⟨withNoData (buildEntry .undocumented "a" "") [7, 0, 0, 0, 0, 0, 0, 0], rfl, by decide, rfl⟩

example : displayEntry sampleEntry = .ok (some (.unsigned 1), some (.unsigned 9), some (.unsigned 65535)) := by
  decide +kernel

/-! ## C67 -/

/-- A step of the builder. -/
inductive BuildStep where
  | offset (v : BitVec 64)
  | scale (v : BitVec 64)
  | min (v : Bytes)
  | max (v : Bytes)
  | noData (v : Bytes)

/-- One call on the builder. -/
def BuildStep.run (e : ExtraEntry) : BuildStep → ExtraEntry
  | .offset v => withOffset e v
  | .scale v => withScale e v
  | .min v => withMin e v
  | .max v => withMax e v
  | .noData v => withNoData e v

/-- The values of the last calls of each kind. -/
def lastOffset (steps : List BuildStep) : Option (BitVec 64) :=
  (steps.filterMap fun | .offset v => some v | _ => none).getLast?
/-- The last scale. -/
def lastScale (steps : List BuildStep) : Option (BitVec 64) :=
  (steps.filterMap fun | .scale v => some v | _ => none).getLast?
/-- The last minimum. -/
def lastMin (steps : List BuildStep) : Option Bytes :=
  (steps.filterMap fun | .min v => some v | _ => none).getLast?
/-- The last maximum. -/
def lastMax (steps : List BuildStep) : Option Bytes :=
  (steps.filterMap fun | .max v => some v | _ => none).getLast?
/-- The last no-data value. -/
def lastNoData (steps : List BuildStep) : Option Bytes :=
  (steps.filterMap fun | .noData v => some v | _ => none).getLast?

theorem setOption_bits (o : BitVec 8) (b c : Nat) (hb : b < 5) (hc : c < 5) :
    optionSet (setOption o b) c = (decide (b = c) || optionSet o c) := by
  have : ∀ (o : BitVec 8) (b c : Fin 5), optionSet (setOption o b) c = (decide (b.val = c.val) || optionSet o c) := by
    decide +kernel
  exact this o ⟨b, hb⟩ ⟨c, hc⟩

/-- **C67**: however the builder is used, the entry has the given type, name and description, and offset,
    scale, minimum, maximum and no-data value are marked as present exactly if they were given and are
    the ones given last. -/
theorem C67_builder (t : ExtraType) (name description : String) (steps : List BuildStep) :
    let e := steps.foldl BuildStep.run (buildEntry t name description)
    e.dataType = t ∧ e.name = name ∧ e.description = description ∧
    e.offset? = lastOffset steps ∧ e.scale? = lastScale steps ∧
    (if optionSet e.options minBit then some e.minValue else none) = lastMin steps ∧
    (if optionSet e.options maxBit then some e.maxValue else none) = lastMax steps ∧
    (if optionSet e.options noDataBit then some e.noDataValue else none) = lastNoData steps := by
  dsimp only
  induction steps using List.reverseRecOn with
  | nil =>
    simp [buildEntry, ExtraEntry.offset?, ExtraEntry.scale?, optionSet, lastOffset, lastScale, lastMin, lastMax,
      lastNoData]
  | append_singleton steps s ih =>
    rw [List.foldl_append]
    show _ ∧ _
    simp only [List.foldl_cons, List.foldl_nil]
    generalize steps.foldl BuildStep.run (buildEntry t name description) = e at ih ⊢
    obtain ⟨i1, i2, i3, i4, i5, i6, i7, i8⟩ := ih
    unfold lastOffset lastScale lastMin lastMax lastNoData ExtraEntry.offset? ExtraEntry.scale? at *
    simp only [List.filterMap_append]
    unfold noDataBit minBit maxBit scaleBit offsetBit at *
    cases s <;>
      simp_all [BuildStep.run, withOffset, withScale, withMin, withMax, withNoData, setOption_bits, noDataBit,
        minBit, maxBit, scaleBit, offsetBit]

end Pasture.Props
