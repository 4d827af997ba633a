import Verif.Props.LasMetadata
import Verif.Lemmas.Layout

/-! # C43: layouts of files with extra bytes -/

namespace Pasture.Props

open Las Spec PointLayout

/-- A layout of alignment 1 whose last attribute ends where the point ends. -/
structure EndsTight (l : PointLayout) : Prop where
  align : l.align = 1
  next : l.packedOffsetOfNextField = l.size

theorem alignTo_one (n : Nat) : alignTo n 1 = n := by
  unfold alignTo; simp

/-- Adding an attribute behind a tight layout. -/
theorem add_tight {l : PointLayout} (h : EndsTight l) (d : AttrDef) (hd : 1 ≤ d.datatype.minAlignment)
    (hn : d.name ∉ l.attributes.map Member.name) (hs : l.size + d.size + 1 ≤ 2 ^ 63) :
    ∃ l', l.addAttribute d (.packed 1) = .ok l' ∧ EndsTight l' ∧ l'.size = l.size + d.size ∧
      l'.attributes = l.attributes ++ [⟨d, l.size⟩] := by
  have hf : fieldAlign d (.packed 1) = 1 := by
    unfold fieldAlign; dsimp only; omega
  have ha : l.newAlign d (.packed 1) = 1 := by
    unfold newAlign; rw [h.align]; rfl
  refine ⟨_, addAttribute_ok.2 ⟨hn, ⟨0, by rw [ha]⟩, ?_, rfl⟩, ⟨ha, ?_⟩, ?_, ?_⟩
  · dsimp only
    rw [ha, hf, alignTo_one, alignTo_one, h.next]
    have : max l.size (l.size + d.size) = l.size + d.size := by omega
    rw [this]; exact hs
  · rw [packedOffset_snoc]
    dsimp only
    rw [ha, hf, alignTo_one, alignTo_one, h.next]
    unfold Member.stop Member.size AttrDef.size
    dsimp only
    omega
  · dsimp only
    rw [ha, hf, alignTo_one, alignTo_one, h.next]; omega
  · dsimp only
    rw [hf, alignTo_one, h.next]

/-- The members that attributes become when they are laid end to end from `o` on. -/
def membersFrom (o : Nat) : List AttrDef → List Member
  | [] => []
  | d :: ds => ⟨d, o⟩ :: membersFrom (o + d.size) ds

theorem membersFrom_names (o : Nat) (ds : List AttrDef) :
    (membersFrom o ds).map Member.name = ds.map AttrDef.name := by
  induction ds generalizing o with
  | nil => rfl
  | cons d ds ih => simp only [membersFrom, List.map_cons, ih]; rfl

theorem addPacked_tight {l : PointLayout} (h : EndsTight l) (ds : List AttrDef)
    (hd : ∀ d ∈ ds, 1 ≤ d.datatype.minAlignment) (hn : (l.attributes.map Member.name ++ ds.map AttrDef.name).Nodup)
    (hs : l.size + (ds.map AttrDef.size).sum + 1 ≤ 2 ^ 63) :
    ∃ l', addPacked l ds = .ok l' ∧ EndsTight l' ∧ l'.size = l.size + (ds.map AttrDef.size).sum ∧
      l'.attributes = l.attributes ++ membersFrom l.size ds := by
  induction ds generalizing l with
  | nil => exact ⟨l, rfl, h, by simp, by simp [membersFrom]⟩
  | cons d ds ih =>
    simp only [List.map_cons, List.sum_cons] at hn hs ⊢
    obtain ⟨l1, h1, h2, h3, h4⟩ := add_tight h d (hd d (by simp)) (by
      intro hc
      rw [List.nodup_append] at hn
      exact hn.2.2 _ hc _ (by simp) rfl) (by omega)
    obtain ⟨l2, h5, h6, h7, h8⟩ := ih h2 (fun x hx => hd x (by simp [hx])) (by
      rw [h4, List.map_append]
      simpa [Member.name] using hn) (by omega)
    refine ⟨l2, ?_, h6, by omega, ?_⟩
    · unfold addPacked
      rw [forLoop_cons, h1]
      exact h5
    · rw [h8, h4, h3, membersFrom, List.append_assoc]
      rfl

theorem describedItem_getPointAttribute (e : ExtraEntry) :
    match describedItem e with
    | some (n, k) => ∃ d, e.getPointAttribute = .ok d ∧ d.name = n ∧ d.size = k ∧ 1 ≤ d.datatype.minAlignment
    | none => e.getPointAttribute = .error .err := by
  unfold describedItem ExtraEntry.getPointAttribute
  cases e.dataType <;> first | exact ⟨_, rfl, rfl, rfl, Nat.le_of_ble_eq_true rfl⟩ | rfl

/-- The attributes of entries with documented data types. -/
theorem described_attributes {entries : List ExtraEntry} {items : List (String × Nat)}
    (h : entries.mapM describedItem = some items) :
    ∃ ds, entries.mapM ExtraEntry.getPointAttribute = .ok ds ∧ ds.map (fun d => (d.name, d.size)) = items ∧
      ∀ d ∈ ds, 1 ≤ d.datatype.minAlignment := by
  induction entries generalizing items with
  | nil => injection h with h; exact ⟨[], rfl, by rw [← h]; rfl, by simp⟩
  | cons e es ih =>
    rw [List.mapM_cons] at h
    have he := describedItem_getPointAttribute e
    cases hd : describedItem e with
    | none => rw [hd] at h; cases h
    | some p =>
      rw [hd] at h he
      cases hes : es.mapM describedItem with
      | none => rw [hes] at h; cases h
      | some ps =>
        rw [hes] at h
        injection h with h
        obtain ⟨d, h1, h2, h3, hd1⟩ := he
        obtain ⟨ds, h4, h5, hd2⟩ := ih hes
        refine ⟨d :: ds, ?_, ?_, List.forall_mem_cons.2 ⟨hd1, hd2⟩⟩
        · rw [List.mapM_cons, h1, h4]; rfl
        · rw [List.map_cons, h5, h2, h3, ← h]

/-- A file: point format `n`, `extra` extra bytes per record, and the entries of the extra bytes VLR. -/
def fileWith (f : Format) (extra : Nat) (entries : Option (List ExtraEntry)) : LasMetadata :=
  ⟨{ f with extraBytes := extra }, entries⟩

/-- The layouts of the formats end tight and have short records. -/
theorem base_tight (n : Nat) (hn : n ≤ 10) (exact : Bool) :
    ∃ f l, Format.new n = .ok f ∧ pointLayoutFromFormat f exact = .ok l ∧ EndsTight l ∧ l.size ≤ 200 ∧
      (l.attributes.map Member.name).Nodup := by
  have key : ∀ (n : Fin 11) (exact : Bool), ∃ f l, Format.new n = .ok f ∧ pointLayoutFromFormat f exact = .ok l ∧
      l.align = 1 ∧ l.packedOffsetOfNextField = l.size ∧ l.size ≤ 200 ∧ (l.attributes.map Member.name).Nodup := by
    intro n exact
    cases exact <;> match n with
    | 0 | 1 | 2 | 3 | 4 | 5 | 6 | 7 | 8 | 9 | 10 =>
      exact ⟨_, _, rfl, rfl, by decide, by decide, by decide, by decide⟩
  obtain ⟨f, l, h1, h2, h3, h4, h5, h6⟩ := key ⟨n, by omega⟩ exact
  exact ⟨f, l, h1, h2, ⟨h3, h4⟩, h5, h6⟩

/-- The sizes of items. -/
def totalSize (items : List (String × Nat)) : Nat := (items.map (·.2)).sum

theorem shape_members (o : Nat) (ds : List AttrDef) :
    (membersFrom o ds).map (fun m => (m.name, m.offset, m.size)) = placed o (ds.map fun d => (d.name, d.size)) := by
  induction ds generalizing o with
  | nil => rfl
  | cons d ds ih => simp only [membersFrom, List.map_cons, placed, ih]; rfl

/-- What the code does for a file whose described bytes are within the extra bytes: the layout is the one of
    the format, then the described attributes, then, if bytes are left, `UndescribedExtraBytes`, which gets as
    many bytes as are described. -/
theorem metadata_layout (n : Nat) (hn : n ≤ 10) (exact : Bool) (extra : Nat) (hx : 0 < extra) (hx2 : extra < 2 ^ 16)
    (vlr : Option (List ExtraEntry)) (items : List (String × Nat))
    (hi : (vlr.getD []).mapM describedItem = some items) (hfit : totalSize items ≤ extra) :
    ∃ f base, Format.new n = .ok f ∧ pointLayoutFromFormat f exact = .ok base ∧
      (((base.attributes.map Member.name ++ items.map (·.1)) ++ ["UndescribedExtraBytes"]).Nodup →
      ∃ l, pointLayoutFromMetadata (fileWith f extra vlr) exact = .ok l ∧ l.align = 1 ∧
        shape l = shape base ++ placed base.size (items ++
          if totalSize items < extra then [("UndescribedExtraBytes", totalSize items)] else []) ∧
        l.size = base.size + (if totalSize items < extra then 2 * totalSize items else extra)) := by
  obtain ⟨f, base, h1, h2, h3, h4, h5⟩ := base_tight n hn exact
  refine ⟨f, base, h1, h2, ?_⟩
  intro hnames
  obtain ⟨ds, hd1, hd2, hd3⟩ := described_attributes hi
  have hsum : (ds.map AttrDef.size).sum = totalSize items := by
    unfold totalSize; rw [← hd2, List.map_map]; rfl
  have hnm : items.map (·.1) = ds.map AttrDef.name := by rw [← hd2, List.map_map]; rfl
  rw [hnm] at hnames
  obtain ⟨l1, a1, a2, a3, a4⟩ := addPacked_tight h3 ds hd3 (List.nodup_append.1 hnames).1 (by rw [hsum]; omega)
  have hl1 : shape l1 = shape base ++ placed base.size items := by
    unfold shape; rw [a4, List.map_append, shape_members, hd2]
  have hattrs : extraByteAttributes vlr = .ok ds := by
    cases vlr with
    | none => exact hd1
    | some es => exact hd1
  have hun : pointLayoutFromMetadata (fileWith f extra vlr) exact =
      if extra < totalSize items then panicked
      else if extra - totalSize items > 0 then
        l1.addAttribute ⟨"UndescribedExtraBytes", .byteArray (totalSize items)⟩ (.packed 1)
      else .ok l1 := by
    unfold pointLayoutFromMetadata fileWith
    dsimp only
    have hb : pointLayoutFromFormat { f with extraBytes := extra } exact = .ok base := h2
    rw [hb]
    show (if extra = 0 then _ else _) = _
    rw [if_neg (by omega)]
    show (extraByteAttributes vlr).bind _ = _
    rw [hattrs]
    show (addPacked base ds).bind _ = _
    rw [a1]
    show (if extra < (ds.map AttrDef.size).sum then _ else _) = _
    rw [hsum]
    rfl
  rw [hun, if_neg (by omega)]
  by_cases hlt : totalSize items < extra
  · rw [if_pos (by omega), if_pos hlt, if_pos hlt]
    obtain ⟨l2, b1, b2, b3, b4⟩ := add_tight a2 ⟨"UndescribedExtraBytes", .byteArray (totalSize items)⟩ (Nat.le_refl 1) (by
      rw [a4, List.map_append, membersFrom_names]
      intro hc
      exact (List.nodup_append.1 hnames).2.2 _ hc _ (by simp) rfl)
      (by rw [a3, hsum]; show _ + totalSize items + 1 ≤ _; omega)
    refine ⟨l2, b1, b2.align, ?_, ?_⟩
    · have pl : ∀ (xs : List (String × Nat)) (o : Nat) (y : String × Nat),
          placed o (xs ++ [y]) = placed o xs ++ [(y.1, o + totalSize xs, y.2)] := by
        intro xs
        induction xs with
        | nil => intro o y; simp [placed, totalSize]
        | cons x xs ih =>
          intro o y
          simp only [List.cons_append, placed, ih, totalSize, List.map_cons, List.sum_cons, Nat.add_assoc]
      rw [pl, ← List.append_assoc, ← hl1]
      unfold shape
      rw [b4, List.map_append, a3, hsum]
      rfl
    · rw [b3, a3, hsum]; show _ + _ + totalSize items = _; omega
  · rw [if_neg (by omega), if_neg hlt, if_neg hlt]
    refine ⟨l1, rfl, a2.align, ?_, ?_⟩
    · rw [hl1, List.append_nil]
    · rw [a3, hsum]; omega

/-- **C43 in part**: if the extra bytes VLR describes all extra bytes of a record, the layout (of the records
    in the file) has the size of the point record and consists of the items of the format followed by the
    described ones. Missing: extra bytes that are not described (`C43_violated`). -/
theorem C43_described_partial (n : Nat) (hn : n ≤ 10) (extra : Nat) (hx : 0 < extra) (hx2 : extra < 2 ^ 16)
    (vlr : Option (List ExtraEntry)) (items : List (String × Nat))
    (hi : (vlr.getD []).mapM describedItem = some items) (hall : totalSize items = extra)
    (hnames : (((lasItems n).map (·.1) ++ items.map (·.1)) ++ ["UndescribedExtraBytes"]).Nodup) :
    ∃ f l, Format.new n = .ok f ∧ pointLayoutFromMetadata (fileWith f extra vlr) true = .ok l ∧
      shape l = placed 0 (lasItems n ++ items) ∧ l.size = lasRecordLength n + extra ∧ l.align = 1 ∧
      l.size = (fileWith f extra vlr).format.len := by
  obtain ⟨f, base, h1, h2, h3⟩ := metadata_layout n hn true extra hx hx2 vlr items hi (by omega)
  obtain ⟨f', base', g1, -, g3, g4, g5, -, g7⟩ := C36_exact_layout n hn
  rw [h1] at g1; injection g1 with g1; subst g1
  rw [h2] at g3; injection g3 with g3; subst g3
  have pnames : ∀ (xs : List (String × Nat)) (o : Nat), (placed o xs).map (·.1) = xs.map (·.1) := by
    intro xs
    induction xs with
    | nil => intro o; rfl
    | cons x xs ih => intro o; simp only [placed, List.map_cons, ih]
  have hb : base.attributes.map Member.name = (lasItems n).map (·.1) := by
    have := congrArg (List.map (·.1)) g4
    rw [pnames] at this
    rw [← this]
    unfold shape
    rw [List.map_map]
    rfl
  have papp : ∀ (xs ys : List (String × Nat)) (o : Nat),
      placed o (xs ++ ys) = placed o xs ++ placed (o + totalSize xs) ys := by
    intro xs ys
    induction xs with
    | nil => intro o; simp [placed, totalSize]
    | cons x xs ih =>
      intro o
      simp only [List.cons_append, placed, ih, totalSize, List.map_cons, List.sum_cons, Nat.add_assoc]
  have htot : ∀ n : Fin 11, totalSize (lasItems n) = lasRecordLength n := by decide
  obtain ⟨l, k1, k2, k3, k4⟩ := h3 (by rw [hb]; exact hnames)
  rw [if_neg (by omega)] at k3 k4
  refine ⟨f, l, h1, k1, ?_, by rw [k4, g5], k2, ?_⟩
  · rw [k3, g4, List.append_nil, papp, g5, Nat.zero_add, htot ⟨n, by omega⟩]
  · rw [k4, g5, ← g7]
    have : f.extraBytes = 0 := by
      unfold Format.new at h1
      rw [if_neg (by omega)] at h1
      injection h1 with h1
      rw [← h1]
    unfold fileWith Format.len
    dsimp only
    omega

/-- **C43 violated**: the layout has the size of the point record only if all extra bytes are described or
    exactly half of them. -/
theorem C43_violated_unless (n : Nat) (hn : n ≤ 10) (extra : Nat) (hx : 0 < extra) (hx2 : extra < 2 ^ 16)
    (vlr : Option (List ExtraEntry)) (items : List (String × Nat))
    (hi : (vlr.getD []).mapM describedItem = some items) (hfit : totalSize items ≤ extra)
    (f : Format) (l : PointLayout) (hf : Format.new n = .ok f)
    (hl : pointLayoutFromMetadata (fileWith f extra vlr) true = .ok l)
    (hnames : (((lasItems n).map (·.1) ++ items.map (·.1)) ++ ["UndescribedExtraBytes"]).Nodup) :
    l.size = lasRecordLength n + extra ↔ totalSize items = extra ∨ 2 * totalSize items = extra := by
  obtain ⟨f', base, h1, h2, h3⟩ := metadata_layout n hn true extra hx hx2 vlr items hi hfit
  rw [hf] at h1; injection h1 with h1; subst h1
  obtain ⟨f', base', g1, -, g3, g4, g5, -, g7⟩ := C36_exact_layout n hn
  rw [hf] at g1; injection g1 with g1; subst g1
  rw [h2] at g3; injection g3 with g3; subst g3
  have pnames : ∀ (xs : List (String × Nat)) (o : Nat), (placed o xs).map (·.1) = xs.map (·.1) := by
    intro xs
    induction xs with
    | nil => intro o; rfl
    | cons x xs ih => intro o; simp only [placed, List.map_cons, ih]
  have hb : base.attributes.map Member.name = (lasItems n).map (·.1) := by
    have := congrArg (List.map (·.1)) g4
    rw [pnames] at this
    rw [← this]
    unfold shape
    rw [List.map_map]
    rfl
  obtain ⟨l', k1, k2, k3, k4⟩ := h3 (by rw [hb]; exact hnames)
  rw [hl] at k1; injection k1 with k1; subst k1
  rw [k4, g5]
  split <;> omega

/-- **C43 violated**: a file of format 0 with four extra bytes and no description: its records have 24 bytes,
    the layout has 20, and the attribute for the extra bytes has none. -/
theorem C43_violated :
    ∃ f l, Format.new 0 = .ok f ∧ pointLayoutFromMetadata (fileWith f 4 none) true = .ok l ∧
      (fileWith f 4 none).format.len = 24 ∧ l.size = 20 ∧
      (shape l).getLast? = some ("UndescribedExtraBytes", 20, 0) :=
  ⟨_, _, rfl, rfl, by decide, by decide, by decide⟩

/-- **C43 violated**: a description of more bytes than there are makes the code panic (integer underflow). -/
theorem C43_underflow_violated :
    ∃ f, Format.new 0 = .ok f ∧
      pointLayoutFromMetadata (fileWith f 1 (some [buildEntry .u16 "a" ""])) true = panicked :=
  ⟨_, rfl, by decide⟩

/-- Non-vacuity: format 7 with a described `u16` and `f64`. -/
example : ∃ f l, Format.new 7 = .ok f ∧
    pointLayoutFromMetadata (fileWith f 10 (some [sampleEntry, buildEntry .f64 "Amplitude" ""])) true = .ok l ∧
      l.size = 46 := by
  obtain ⟨f, l, h1, h2, h3, h4, h5⟩ := C43_described_partial 7 (by decide) 10 (by decide) (by decide)
    (some [sampleEntry, buildEntry .f64 "Amplitude" ""]) [("Höhe", 2), ("Amplitude", 8)] rfl rfl (by decide)
  exact ⟨f, l, h1, h2, h4⟩

end Pasture.Props
