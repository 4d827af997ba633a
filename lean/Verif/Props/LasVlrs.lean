import Verif.Spec.LasVlrs
import Verif.Props.LasMetadata

/-!
# The metadata of LAS files: C86
-/

namespace Pasture.Props

open Spec Las

theorem find_first {vlrs : List Vlr} {id : BitVec 16} {v : Vlr} :
    vlrs.find? (fun v => v.userId = knownVlrUserId ∧ v.recordId = id) = some v ↔ FirstVlr vlrs id v := by
  rw [List.find?_eq_some_iff_append]
  constructor
  · rintro ⟨h, a, b, e, n⟩
    refine ⟨a, b, e, of_decide_eq_true (p := v.userId = knownVlrUserId ∧ v.recordId = id) h, fun u hu hc => ?_⟩
    have := n u hu
    rw [decide_eq_true (p := u.userId = knownVlrUserId ∧ u.recordId = id) hc] at this
    cases this
  · rintro ⟨a, b, e, h, n⟩
    refine ⟨decide_eq_true h, a, b, e, fun u hu => ?_⟩
    rw [decide_eq_false (p := u.userId = knownVlrUserId ∧ u.recordId = id) (n u hu)]
    rfl

theorem find_none {vlrs : List Vlr} {id : BitVec 16} :
    vlrs.find? (fun v => v.userId = knownVlrUserId ∧ v.recordId = id) = none ↔ NoVlr vlrs id := by
  rw [List.find?_eq_none]
  constructor
  · intro h u hu hc
    exact h u hu (decide_eq_true hc)
  · intro h u hu hc
    exact h u hu (of_decide_eq_true (p := u.userId = knownVlrUserId ∧ u.recordId = id) hc)

theorem first_or_none (vlrs : List Vlr) (id : BitVec 16) : NoVlr vlrs id ∨ ∃ v, FirstVlr vlrs id v := by
  cases h : vlrs.find? (fun v => v.userId = knownVlrUserId ∧ v.recordId = id) with
  | none => exact .inl (find_none.1 h)
  | some v => exact .inr ⟨v, find_first.1 h⟩

theorem findVlr_first {α : Type} {vlrs : List Vlr} {id : BitVec 16} {v : Vlr} (h : FirstVlr vlrs id v) (parse : Vlr → Out α) :
    findVlr vlrs id parse = (parse v).map some := by
  unfold findVlr
  rw [find_first.2 h]
  show (parse v).bind _ = _
  cases parse v <;> rfl

theorem findVlr_none {α : Type} {vlrs : List Vlr} {id : BitVec 16} (h : NoVlr vlrs id) (parse : Vlr → Out α) :
    findVlr vlrs id parse = .ok none := by
  unfold findVlr
  rw [find_none.2 h]
  rfl

theorem findVlr_ok {α : Type} {vlrs : List Vlr} {id : BitVec 16} {parse : Vlr → Out α} :
    (∃ x, findVlr vlrs id parse = .ok x) ↔ ∀ v, FirstVlr vlrs id v → ∃ x, parse v = .ok x := by
  constructor
  · rintro ⟨x, hx⟩ v hv
    rw [findVlr_first hv] at hx
    cases hp : parse v with
    | ok y => exact ⟨y, rfl⟩
    | error e => rw [hp] at hx; cases hx
  · intro h
    rcases first_or_none vlrs id with hn | ⟨v, hv⟩
    · exact ⟨none, findVlr_none hn _⟩
    · obtain ⟨x, hx⟩ := h v hv
      exact ⟨some x, by rw [findVlr_first hv, hx]; rfl⟩

theorem bailIf_false {p : Prop} [Decidable p] (h : ¬p) : bailIf (decide p) = .ok () := by
  unfold bailIf
  rw [if_neg (by simpa using h)]

theorem bailIf_true {p : Prop} [Decidable p] (h : p) : bailIf (decide p) = .error .err := by
  unfold bailIf
  rw [if_pos (by simpa using h)]

/-- The class names of a record. -/
theorem classes_eq (lossy : Bytes → String) {v : Vlr} (hk : KnownVlr 0 v) :
    classificationOfVlr lossy v = if v.data.length = 4096 then
      .ok ((List.range 256).map fun i => ⟨BitVec.ofNat 8 (leNat ((v.data.drop (i * 16)).take 1)),
        lossy ((v.data.drop (i * 16 + 1)).take 15)⟩)
    else .error .err := by
  unfold classificationOfVlr
  rw [bailIf_false (by simpa [knownVlrUserId] using hk.1), bailIf_false (by simpa [classificationRecordId] using hk.2)]
  by_cases hl : v.data.length = 4096
  · rw [bailIf_false (by simpa using hl), if_pos hl]
    refine mapM_ok ?_
    intro i hi
    have hi := List.mem_range.1 hi
    have hlen : (((v.data.drop (i * 16)).take 16)).length = 16 := by
      rw [List.length_take, List.length_drop]; omega
    have h1 : sliceGet v.data (i * 16) (i * 16 + 16) = .ok ((v.data.drop (i * 16)).take 16) := by
      unfold sliceGet
      rw [if_pos (by omega), Nat.add_sub_cancel_left]
    rw [h1]
    show (sliceGet _ 0 1).bind _ = _
    unfold sliceGet
    rw [if_pos (by omega)]
    show Except.bind (if _ then _ else _) _ = _
    rw [if_pos (by omega)]
    show Except.ok (ClassEntry.mk _ _) = _
    rw [List.drop_zero, List.take_take, List.drop_take, List.take_take, List.drop_drop]
    rfl
  · rw [bailIf_true (by simpa using hl), if_neg hl]
    rfl

theorem text_eq {v : Vlr} (hk : KnownVlr 3 v) : textAreaOfVlr v = orErr (fromUtf8 v.data) := by
  unfold textAreaOfVlr
  rw [bailIf_false (by simpa [knownVlrUserId] using hk.1), bailIf_false (by simpa [textAreaRecordId] using hk.2)]
  rfl

theorem first_known {vlrs : List Vlr} {id : BitVec 16} {v : Vlr} (h : FirstVlr vlrs id v) : KnownVlr id v := by
  obtain ⟨_, _, _, h, _⟩ := h
  exact h

theorem metadata_bind {lossy : Bytes → String} {h : FileHeader} {m : FileMetadata} :
    metadataOfHeader lossy h = .ok m ↔ ∃ c t e, findVlr h.vlrs 0 (classificationOfVlr lossy) = .ok c ∧
      findVlr h.vlrs 3 textAreaOfVlr = .ok t ∧ findVlr h.vlrs 4 extraBytesOfVlr = .ok e ∧
      m = ⟨⟨h.min, h.max⟩, h.numberOfPoints, h.format, some h, c, t, e⟩ := by
  unfold metadataOfHeader
  show (findVlr h.vlrs 0 _).bind _ = _ ↔ _
  cases findVlr h.vlrs 0 (classificationOfVlr lossy) with
  | error f => simp [Except.bind]
  | ok c =>
    show (findVlr h.vlrs 3 _).bind _ = _ ↔ _
    cases findVlr h.vlrs 3 textAreaOfVlr with
    | error f => simp [Except.bind]
    | ok t =>
      show (findVlr h.vlrs 4 _).bind _ = _ ↔ _
      cases findVlr h.vlrs 4 extraBytesOfVlr with
      | error f => simp [Except.bind]
      | ok e =>
        show Except.ok _ = _ ↔ _
        constructor
        · intro he
          exact ⟨c, t, e, rfl, rfl, rfl, (Except.ok.inj he).symm⟩
        · rintro ⟨_, _, _, h1, h2, h3, rfl⟩
          cases h1
          cases h2
          cases h3
          rfl

/-- **C86**: there is metadata for a file exactly if the first of its records of each known kind is well-formed (for extra
    bytes see C44). -/
theorem C86_accepts (lossy : Bytes → String) (h : FileHeader) :
    (∃ m, metadataOfHeader lossy h = .ok m) ↔ (∀ v, FirstVlr h.vlrs 0 v → v.data.length = 4096) ∧
      (∀ v, FirstVlr h.vlrs 3 v → ∃ s, utf8 s = v.data) ∧
      (∀ v, FirstVlr h.vlrs 4 v → ∃ entries, extraBytesOfVlr v = .ok entries) := by
  have h1 : (∃ c, findVlr h.vlrs 0 (classificationOfVlr lossy) = .ok c) ↔
      ∀ v, FirstVlr h.vlrs 0 v → v.data.length = 4096 := by
    rw [findVlr_ok]
    refine forall_congr' fun v => imp_congr_right fun hv => ?_
    rw [classes_eq lossy (first_known hv)]
    split <;> simp [*]
  have h2 : (∃ t, findVlr h.vlrs 3 textAreaOfVlr = .ok t) ↔ ∀ v, FirstVlr h.vlrs 3 v → ∃ s, utf8 s = v.data := by
    rw [findVlr_ok]
    refine forall_congr' fun v => imp_congr_right fun hv => ?_
    rw [text_eq (first_known hv)]
    refine exists_congr fun s => ?_
    rw [← fromUtf8_eq]
    cases fromUtf8 v.data <;> simp [orErr]
  rw [← h1, ← h2, ← findVlr_ok]
  constructor
  · rintro ⟨m, hm⟩
    obtain ⟨c, t, e, a1, a2, a3, _⟩ := metadata_bind.1 hm
    exact ⟨⟨c, a1⟩, ⟨t, a2⟩, e, a3⟩
  · rintro ⟨⟨c, a1⟩, ⟨t, a2⟩, e, a3⟩
    exact ⟨_, metadata_bind.2 ⟨c, t, e, a1, a2, a3, rfl⟩⟩

/-- **C86**: the metadata has the bounds, the number of points and the format of the header, the text of the first text
    record and the entries of the first table of class names. -/
theorem C86_shows (lossy : Bytes → String) (h : FileHeader) (m : FileMetadata) (hm : metadataOfHeader lossy h = .ok m) :
    m.bounds = ⟨h.min, h.max⟩ ∧ m.pointCount = h.numberOfPoints ∧ m.format = h.format ∧
    (NoVlr h.vlrs 3 → m.textArea = none) ∧ (∀ v, FirstVlr h.vlrs 3 v → ∃ s, m.textArea = some s ∧ utf8 s = v.data) ∧
    (NoVlr h.vlrs 4 → m.extraBytes = none) ∧
    (∀ v, FirstVlr h.vlrs 4 v → ∃ es, m.extraBytes = some es ∧ extraBytesOfVlr v = .ok es) ∧
    (NoVlr h.vlrs 0 → m.classificationLookup = none) ∧
    (∀ v, FirstVlr h.vlrs 0 v → ∃ es, m.classificationLookup = some es ∧ es.length = 256 ∧
      ∀ (i : Nat) (e : ClassEntry), es[i]? = some e → v.data[i * 16]? = some e.classification ∧
        e.description = lossy ((v.data.drop (i * 16 + 1)).take 15)) := by
  obtain ⟨c, t, e, a1, a2, a3, rfl⟩ := metadata_bind.1 hm
  refine ⟨rfl, rfl, rfl, ?_, ?_, ?_, ?_, ?_, ?_⟩
  · intro hn
    rw [findVlr_none hn] at a2
    exact (Except.ok.inj a2).symm
  · intro v hv
    rw [findVlr_first hv, text_eq (first_known hv)] at a2
    cases hf : fromUtf8 v.data with
    | none => rw [hf] at a2; cases a2
    | some s =>
      rw [hf] at a2
      exact ⟨s, (Except.ok.inj a2).symm, (fromUtf8_eq _ _).1 hf⟩
  · intro hn
    rw [findVlr_none hn] at a3
    exact (Except.ok.inj a3).symm
  · intro v hv
    rw [findVlr_first hv] at a3
    cases hf : extraBytesOfVlr v with
    | error f => rw [hf] at a3; cases a3
    | ok es =>
      rw [hf] at a3
      exact ⟨es, (Except.ok.inj a3).symm, rfl⟩
  · intro hn
    rw [findVlr_none hn] at a1
    exact (Except.ok.inj a1).symm
  · intro v hv
    rw [findVlr_first hv, classes_eq lossy (first_known hv)] at a1
    by_cases hl : v.data.length = 4096
    · rw [if_pos hl] at a1
      refine ⟨_, (Except.ok.inj a1).symm, by simp, ?_⟩
      intro i e he
      rw [List.getElem?_map, Option.map_eq_some_iff] at he
      obtain ⟨k, hk, rfl⟩ := he
      obtain ⟨hlt, hk⟩ := List.getElem?_eq_some_iff.1 hk
      rw [List.getElem_range] at hk
      subst hk
      rw [List.length_range] at hlt
      refine ⟨?_, rfl⟩
      have hb : i * 16 < v.data.length := by omega
      rw [List.drop_eq_getElem_cons hb, List.take_succ_cons, List.take_zero, leNat_singleton,
        List.getElem?_eq_getElem hb]
      simp
    · rw [if_neg hl] at a1
      cases a1

/-- **C86, named fields**: those of the header, for a date with a year of the LAS format. -/
theorem C86_fields (lossy : Bytes → String) (h : FileHeader) (m : FileMetadata) (hm : metadataOfHeader lossy h = .ok m)
    (hd : ∀ y d, h.date = some (y, d) → 0 ≤ y ∧ y < 65536 ∧ d ≤ 366) :
    getNamedField m "LASFIELD_FileSourceID" = .ok (some (.number h.fileSourceId)) ∧
    getNamedField m "LASFIELD_GeneratingSoftware" = .ok (some (.text h.generatingSoftware)) ∧
    getNamedField m "LASFIELD_SystemIdentifier" = .ok (some (.text h.systemIdentifier)) ∧
    getNamedField m "LASFIELD_Version" = .ok (some (.text h.version)) ∧
    getNamedField m "LASFIELD_FileCreationYear" = .ok (h.date.map fun d => .number (BitVec.ofInt 16 d.1)) ∧
    getNamedField m "LASFIELD_FileCreationDayOfYear" = .ok (h.date.map fun d => .number (BitVec.ofNat 16 d.2)) ∧
    ∀ name, name ∉ ["LASFIELD_FileSourceID", "LASFIELD_GeneratingSoftware", "LASFIELD_SystemIdentifier", "LASFIELD_Version",
      "LASFIELD_FileCreationYear", "LASFIELD_FileCreationDayOfYear"] → getNamedField m name = .ok none := by
  obtain ⟨c, t, e, _, _, _, rfl⟩ := metadata_bind.1 hm
  refine ⟨rfl, rfl, rfl, rfl, ?_, ?_, ?_⟩
  · show (match h.date with
      | none => pure none
      | some (year, _) => do
        let n ← u16OrPanic year
        pure (some (.number n)) : Out (Option FieldValue)) = _
    cases hdate : h.date with
    | none => rfl
    | some d =>
      obtain ⟨y, d⟩ := d
      obtain ⟨h1, h2, h3⟩ := hd y d hdate
      show (u16OrPanic y).bind _ = _
      unfold u16OrPanic
      rw [if_pos ⟨h1, h2⟩]
      rfl
  · show (match h.date with
      | none => pure none
      | some (_, day) => do
        let n ← u16OrPanic day
        pure (some (.number n)) : Out (Option FieldValue)) = _
    cases hdate : h.date with
    | none => rfl
    | some d =>
      obtain ⟨y, d⟩ := d
      obtain ⟨h1, h2, h3⟩ := hd y d hdate
      show (u16OrPanic d).bind _ = _
      unfold u16OrPanic
      rw [if_pos (by omega), BitVec.ofInt_natCast]
      rfl
  · intro name hn
    simp only [List.mem_cons, List.not_mem_nil, or_false, not_or] at hn
    obtain ⟨n1, n2, n3, n4, n5, n6⟩ := hn
    unfold getNamedField
    dsimp only
    rw [if_neg n6, if_neg n5, if_neg n1, if_neg n2, if_neg n3, if_neg n4]
    rfl

/-- **C86 is violated for years that are not those of the LAS format** (a header can be built with any date): asking for
    the year panics. -/
theorem C86_year_violated (lossy : Bytes → String) (h : FileHeader) (m : FileMetadata) (hm : metadataOfHeader lossy h = .ok m)
    (y : Int) (d : Nat) (hd : h.date = some (y, d)) (hy : y < 0 ∨ 65536 ≤ y) :
    getNamedField m "LASFIELD_FileCreationYear" = panicked := by
  obtain ⟨c, t, e, _, _, _, rfl⟩ := metadata_bind.1 hm
  show (match h.date with
      | none => pure none
      | some (year, _) => do
        let n ← u16OrPanic year
        pure (some (.number n)) : Out (Option FieldValue)) = _
  rw [hd]
  show (u16OrPanic y).bind _ = _
  unfold u16OrPanic
  rw [if_neg (by omega)]
  rfl

/-- The bytes of an entry of a table. -/
theorem table_slot (before after : List (Byte × String)) (c : Byte) (s : String)
    (hb : ∀ e ∈ before, TextFits e.2 15) (hs : TextFits s 15) :
    ((classTable (before ++ (c, s) :: after)).drop (before.length * 16 + 1)).take 15 = textField s 15 ∧
    (classTable (before ++ (c, s) :: after))[before.length * 16]? = some c := by
  have hlen : (classTable before).length = before.length * 16 := by
    clear hs
    unfold classTable
    induction before with
    | nil => rfl
    | cons e es ih =>
      rw [List.flatMap_cons, List.length_append, ih fun x hx => hb x (List.mem_cons_of_mem _ hx), List.length_cons,
        textField_length (hb e List.mem_cons_self), List.length_cons]
      omega
  have hsplit : classTable (before ++ (c, s) :: after) = classTable before ++ (c :: (textField s 15 ++ classTable after)) := by
    unfold classTable
    rw [List.flatMap_append, List.flatMap_cons]
    rfl
  rw [hsplit, ← hlen]
  constructor
  · rw [← List.drop_drop, List.drop_left, List.drop_succ_cons, List.drop_zero]
    exact List.take_left' (textField_length hs)
  · rw [List.getElem?_append_right (Nat.le_refl _), Nat.sub_self]
    rfl

/-- **C86, class names in part**: names of 15 bytes come back. -/
theorem C86_names_partial {lossy : Bytes → String} (hk : KeepsText lossy) (h : FileHeader) (m : FileMetadata)
    (hm : metadataOfHeader lossy h = .ok m) (v : Vlr) (hv : FirstVlr h.vlrs 0 v) (before after : List (Byte × String))
    (c : Byte) (s : String) (hd : v.data = classTable (before ++ (c, s) :: after)) (hb : ∀ e ∈ before, TextFits e.2 15)
    (hs : TextFits s 15) (h15 : (utf8 s).length = 15) (hi : before.length < 256) :
    ∃ es, m.classificationLookup = some es ∧ es[before.length]? = some ⟨c, s⟩ := by
  obtain ⟨_, _, _, _, _, _, _, _, hc⟩ := C86_shows lossy h m hm
  obtain ⟨es, h1, h2, h3⟩ := hc v hv
  refine ⟨es, h1, ?_⟩
  have hlt : before.length < es.length := by omega
  obtain ⟨g1, g2⟩ := h3 _ _ (List.getElem?_eq_getElem hlt)
  obtain ⟨t1, t2⟩ := table_slot before after c s hb hs
  rw [hd] at g1 g2
  rw [t2] at g1
  rw [t1] at g2
  have ht : textField s 15 = utf8 s := by
    unfold textField
    rw [h15]
    exact List.append_nil _
  rw [ht, hk s] at g2
  rw [List.getElem?_eq_getElem hlt]
  cases he : es[before.length] with
  | mk a b =>
    rw [he] at g1 g2
    cases Option.some.inj g1
    cases g2
    rfl

theorem utf8_append (s t : String) : utf8 (s ++ t) = utf8 s ++ utf8 t := by
  unfold utf8
  simp

/-- **C86 is violated for class names**: every name of less than 15 bytes comes back with NUL characters at its end. -/
theorem C86_names_violated {lossy : Bytes → String} (hk : KeepsText lossy) (h : FileHeader) (m : FileMetadata)
    (hm : metadataOfHeader lossy h = .ok m) (v : Vlr) (hv : FirstVlr h.vlrs 0 v) (before after : List (Byte × String))
    (c : Byte) (s : String) (hd : v.data = classTable (before ++ (c, s) :: after)) (hb : ∀ e ∈ before, TextFits e.2 15)
    (hs : TextFits s 15) (h15 : (utf8 s).length < 15) (hi : before.length < 256) :
    ∃ es nuls, m.classificationLookup = some es ∧ es[before.length]? = some ⟨c, s ++ nuls⟩ ∧ s ++ nuls ≠ s ∧
      utf8 nuls = zeros (15 - (utf8 s).length) := by
  obtain ⟨_, _, _, _, _, _, _, _, hc⟩ := C86_shows lossy h m hm
  obtain ⟨es, h1, h2, h3⟩ := hc v hv
  have hz : ∀ k, ∃ nuls : String, utf8 nuls = zeros k := by
    intro k
    induction k with
    | zero => exact ⟨"", rfl⟩
    | succ k ih =>
      obtain ⟨n, hn⟩ := ih
      refine ⟨"\x00" ++ n, ?_⟩
      rw [utf8_append, hn]
      rfl
  obtain ⟨nuls, hn⟩ := hz (15 - (utf8 s).length)
  have ht : textField s 15 = utf8 (s ++ nuls) := by rw [utf8_append, hn]; rfl
  refine ⟨es, nuls, h1, ?_, ?_, hn⟩
  · have hlt : before.length < es.length := by omega
    obtain ⟨g1, g2⟩ := h3 _ _ (List.getElem?_eq_getElem hlt)
    obtain ⟨t1, t2⟩ := table_slot before after c s hb hs
    rw [hd] at g1 g2
    rw [t2] at g1
    rw [t1, ht, hk] at g2
    rw [List.getElem?_eq_getElem hlt]
    cases he : es[before.length] with
    | mk a b =>
      rw [he] at g1 g2
      cases Option.some.inj g1
      cases g2
      rfl
  · intro hc
    have := congrArg (fun t => (utf8 t).length) hc
    simp only [utf8_append, hn, List.length_append, zeros, List.length_replicate] at this
    omega

/-- **C86 is violated for extended records**: LAS 1.4 allows each of the records after the points, where none is found. -/
theorem C86_extended_violated (lossy : Bytes → String) (h : FileHeader) (hv : h.vlrs = []) :
    ∃ m, metadataOfHeader lossy h = .ok m ∧ m.classificationLookup = none ∧ m.textArea = none ∧ m.extraBytes = none := by
  have hn : ∀ id, NoVlr h.vlrs id := by
    intro id u hu
    rw [hv] at hu
    cases hu
  exact ⟨_, metadata_bind.2 ⟨none, none, none, findVlr_none (hn 0) _, findVlr_none (hn 3) _, findVlr_none (hn 4) _, rfl⟩,
    rfl, rfl, rfl⟩

namespace VlrExample

/-- A decoder that gives up on invalid text. -/
def lossy (b : Bytes) : String := (fromUtf8 b).getD "?"

theorem lossy_keeps : KeepsText lossy := fun s => by unfold lossy; rw [fromUtf8_utf8]; rfl

/-- Class 2 is called "Ground", the others have no name. -/
def names : List (Byte × String) := [(0, ""), (1, ""), (2, "Ground")] ++ (List.range 253).map fun i => (BitVec.ofNat 8 (i + 3), "")

def classes : Vlr := ⟨"LASF_Spec", 0, classTable names, 8⟩

def text : Vlr := ⟨"LASF_Spec", 3, utf8 "Survey", 8⟩

def header : FileHeader where
  min := ⟨.zero .f64, .zero .f64, .zero .f64⟩
  max := ⟨.zero .f64, .zero .f64, .zero .f64⟩
  numberOfPoints := 5
  format := ⟨false, false, false, false, false, 0, false⟩
  vlrs := [text, classes, ⟨"LASF_Spec", 3, [0xff], 8⟩]
  evlrs := []
  date := some (2024, 60)
  fileSourceId := 7
  generatingSoftware := "software"
  systemIdentifier := "system"
  version := "1.4"

theorem names_fit : ∀ e ∈ names, TextFits e.2 15 := by
  intro e he
  have : e.2 = "" ∨ e.2 = "Ground" := by
    unfold names at he
    rw [List.mem_append] at he
    rcases he with he | he
    · simp only [List.mem_cons, List.not_mem_nil, or_false] at he
      rcases he with rfl | rfl | rfl <;> simp
    · obtain ⟨i, _, rfl⟩ := List.mem_map.1 he
      exact .inl rfl
  rcases this with h | h <;> rw [h] <;> decide +kernel

theorem first_text : FirstVlr header.vlrs 3 text := ⟨[], _, rfl, ⟨rfl, rfl⟩, by simp⟩

theorem first_classes : FirstVlr header.vlrs 0 classes :=
  ⟨[text], _, rfl, ⟨rfl, rfl⟩, by simp [KnownVlr, text]⟩

/-- The file is accepted (the second text record is not looked at), its text is found, and class 2 is called "Ground" with
    nine NULs. -/
example : ∃ m, metadataOfHeader lossy header = .ok m ∧ m.textArea = some "Survey" ∧
    (∃ es nuls, m.classificationLookup = some es ∧ es[2]? = some ⟨2, "Ground" ++ nuls⟩ ∧ utf8 nuls = zeros 9) ∧
    getNamedField m "LASFIELD_FileCreationYear" = .ok (some (.number 2024)) := by
  obtain ⟨m, hm⟩ := (C86_accepts lossy header).2 (by
    refine ⟨?_, ?_, ?_⟩
    · intro v hv
      have : v = classes := Option.some.inj ((find_first.2 hv).symm.trans (find_first.2 first_classes))
      rw [this]
      decide +kernel
    · intro v hv
      have : v = text := Option.some.inj ((find_first.2 hv).symm.trans (find_first.2 first_text))
      exact ⟨"Survey", by rw [this]; rfl⟩
    · intro v ⟨a, b, e, hk, _⟩
      have hm : v ∈ header.vlrs := by rw [e]; simp
      simp [header, text, classes] at hm
      rcases hm with rfl | rfl | rfl <;> exact absurd hk.2 (by decide))
  obtain ⟨_, _, _, _, ht, _⟩ := C86_shows lossy header m hm
  obtain ⟨s, h1, h2⟩ := ht text first_text
  obtain ⟨es, nuls, g1, g2, _, g3⟩ := C86_names_violated lossy_keeps header m hm classes first_classes
    [(0, ""), (1, "")] ((List.range 253).map fun i => (BitVec.ofNat 8 (i + 3), "")) 2 "Ground" rfl
    (fun e he => names_fit e (by simp at he; rcases he with rfl | rfl <;> simp [names])) (by decide +kernel) (by decide +kernel)
    (by decide)
  obtain ⟨_, _, _, _, hy, _⟩ := C86_fields lossy header m hm (by
    intro y d hd
    cases hd
    omega)
  refine ⟨m, hm, ?_, ⟨es, nuls, g1, g2, g3⟩, hy⟩
  have : fromUtf8 (utf8 s) = fromUtf8 (utf8 "Survey") := by rw [h2]; rfl
  rw [fromUtf8_utf8, fromUtf8_utf8] at this
  rw [h1, this]

end VlrExample

end Pasture.Props
