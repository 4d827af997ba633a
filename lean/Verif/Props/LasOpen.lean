import Verif.Spec.LasOpen
import Verif.Props.LasVlrs
import Verif.Props.LasExtraRead
import Verif.Lemmas.Malformed

/-!
# C94: which LAS and LAZ files open
-/

namespace Pasture.Props

open Las Spec PointLayout

theorem placed_names (xs : List (String × Nat)) (o : Nat) : (Spec.placed o xs).map (·.1) = xs.map (·.1) := by
  induction xs generalizing o with
  | nil => rfl
  | cons x xs ih => simp only [Spec.placed, List.map_cons, ih]

theorem shape_names {l : PointLayout} {items : List (String × Nat)} (h : shape l = Spec.placed 0 items) :
    l.attributes.map Member.name = items.map (·.1) := by
  have := congrArg (List.map (·.1)) h
  rw [placed_names] at this
  rw [← this]
  unfold shape
  rw [List.map_map]
  rfl

/-- The layout of a format, with its names. -/
theorem base_names {n : Nat} (hn : n ≤ 10) {f : Format} (hf : Format.new n = .ok f) (exact : Bool) :
    ∃ base, pointLayoutFromFormat f exact = .ok base ∧ EndsTight base ∧ base.size ≤ 200 ∧
      (base.attributes.map Member.name).Nodup ∧
      base.attributes.map Member.name = if exact then (lasItems n).map (·.1) else ((lasItems n).flatMap expandItem).map (·.1) := by
  obtain ⟨f', l, h1, h2, h3, h4, h5⟩ := base_tight n hn exact
  obtain rfl : f = f' := by rw [hf] at h1; cases h1; rfl
  refine ⟨l, h2, h3, h4, h5, ?_⟩
  cases exact with
  | true =>
    obtain ⟨f', l', g1, -, g2, g3, -⟩ := C36_exact_layout n hn
    obtain rfl : f = f' := by rw [hf] at g1; cases g1; rfl
    obtain rfl : l = l' := by rw [h2] at g2; cases g2; rfl
    exact shape_names g3
  | false =>
    obtain ⟨f', l', g1, g2, g3, -⟩ := C36_default_layout n hn
    obtain rfl : f = f' := by rw [hf] at g1; cases g1; rfl
    obtain rfl : l = l' := by rw [h2] at g2; cases g2; rfl
    exact shape_names g3

/-- The clashes in one layout. -/
def LayoutClashes (taken : List String) (extra : Nat) (items : List (String × Nat)) : Prop :=
  ¬ (taken ++ items.map (·.1)).Nodup ∨ extra < totalSize items ∨
    (totalSize items < extra ∧ "UndescribedExtraBytes" ∈ items.map (·.1))

theorem undocumented_attributes {entries : List ExtraEntry} (h : entries.mapM describedItem = none) :
    entries.mapM ExtraEntry.getPointAttribute = .error .err := by
  induction entries with
  | nil => cases h
  | cons e es ih =>
    rw [List.mapM_cons] at h ⊢
    have he := describedItem_getPointAttribute e
    cases hd : describedItem e with
    | none => rw [hd] at he; rw [he]; rfl
    | some p =>
      rw [hd] at he h
      obtain ⟨d, h1, -⟩ := he
      rw [h1]
      cases hes : es.mapM describedItem with
      | none => rw [ih hes]; rfl
      | some ps => rw [hes] at h; cases h

/-- One of the two layouts of a file with extra bytes. -/
theorem layout_outcome {n : Nat} (hn : n ≤ 10) {f : Format} (hf : Format.new n = .ok f) (exact : Bool) {extra : Nat}
    (hx : 0 < extra) (hx2 : extra < 2 ^ 16) (vlr : Option (List ExtraEntry)) :
    match (vlr.getD []).mapM describedItem with
    | none => pointLayoutFromMetadata (fileWith f extra vlr) exact = .error .err
    | some items => totalSize items < 2 ^ 32 →
      (LayoutClashes (if exact then (lasItems n).map (·.1) else ((lasItems n).flatMap expandItem).map (·.1)) extra items →
        pointLayoutFromMetadata (fileWith f extra vlr) exact = .error .panic) ∧
      (¬ LayoutClashes (if exact then (lasItems n).map (·.1) else ((lasItems n).flatMap expandItem).map (·.1)) extra items →
        ∃ l, pointLayoutFromMetadata (fileWith f extra vlr) exact = .ok l) := by
  obtain ⟨base, h2, h3, h4, h5, h6⟩ := base_names hn hf exact
  rw [← h6]
  have hattrs : extraByteAttributes vlr = (vlr.getD []).mapM ExtraEntry.getPointAttribute := by
    cases vlr <;> rfl
  have hun : pointLayoutFromMetadata (fileWith f extra vlr) exact = (extraByteAttributes vlr).bind fun attributes =>
      (addPacked base attributes).bind fun l1 =>
        if extra < (attributes.map AttrDef.size).sum then panicked
        else if extra - (attributes.map AttrDef.size).sum > 0 then
          l1.addAttribute ⟨"UndescribedExtraBytes", .byteArray (attributes.map AttrDef.size).sum⟩ (.packed 1)
        else .ok l1 := by
    unfold pointLayoutFromMetadata fileWith
    dsimp only
    have hb : pointLayoutFromFormat { f with extraBytes := extra } exact = .ok base := h2
    rw [hb]
    show (if extra = 0 then _ else _) = _
    rw [if_neg (by omega)]
    rfl
  rw [hun, hattrs]
  cases hi : (vlr.getD []).mapM describedItem with
  | none => dsimp only; rw [undocumented_attributes hi]; rfl
  | some items =>
    dsimp only
    intro ht
    obtain ⟨ds, hd1, hd2, hd3⟩ := described_attributes hi
    have hsum : (ds.map AttrDef.size).sum = totalSize items := by
      unfold totalSize; rw [← hd2, List.map_map]; rfl
    have hnm : items.map (·.1) = ds.map AttrDef.name := by rw [← hd2, List.map_map]; rfl
    rw [hd1]
    show (_ → (addPacked base ds).bind _ = _) ∧ (_ → ∃ l, (addPacked base ds).bind _ = _)
    rw [hsum]
    unfold LayoutClashes
    rw [hnm]
    by_cases hc : (base.attributes.map Member.name ++ ds.map AttrDef.name).Nodup
    · obtain ⟨l1, a1, a2, a3, a4⟩ := addPacked_tight h3 ds hd3 hc (by rw [hsum]; omega)
      rw [a1]
      show (_ → (if extra < totalSize items then _ else _) = _) ∧ (_ → ∃ l, (if extra < totalSize items then _ else _) = _)
      have hl : l1.attributes.map Member.name = base.attributes.map Member.name ++ ds.map AttrDef.name := by
        rw [a4, List.map_append, membersFrom_names]
      have hbase : "UndescribedExtraBytes" ∉ base.attributes.map Member.name := by
        rw [h6]
        have key : ∀ (n : Fin 11) (exact : Bool), "UndescribedExtraBytes" ∉
            (if exact then (lasItems n).map (·.1) else ((lasItems n).flatMap expandItem).map (·.1)) := by decide
        exact key ⟨n, by omega⟩ exact
      by_cases h7 : extra < totalSize items
      · rw [if_pos h7]
        exact ⟨fun _ => rfl, fun h => absurd (.inr (.inl h7)) h⟩
      · rw [if_neg h7]
        by_cases h8 : totalSize items < extra
        · rw [if_pos (by omega)]
          by_cases h9 : "UndescribedExtraBytes" ∈ ds.map AttrDef.name
          · refine ⟨fun _ => ?_, fun h => absurd (.inr (.inr ⟨h8, h9⟩)) h⟩
            unfold addAttribute
            rw [if_pos]
            · rfl
            · unfold getAttributeByName
              rw [List.find?_isSome]
              have : "UndescribedExtraBytes" ∈ l1.attributes.map Member.name := by
                rw [hl]; exact List.mem_append_right _ h9
              obtain ⟨m, hm, he⟩ := List.mem_map.1 this
              exact ⟨m, hm, by simp [he]⟩
          · refine ⟨?_, fun _ => ?_⟩
            · rintro (h | h | h)
              · exact absurd hc h
              · exact absurd h h7
              · exact absurd h.2 h9
            · obtain ⟨l2, b1, -⟩ := add_tight a2 ⟨"UndescribedExtraBytes", .byteArray (totalSize items)⟩ (Nat.le_refl 1) (by
                rw [hl]
                intro hm
                rcases List.mem_append.1 hm with hm | hm
                · exact hbase hm
                · exact h9 hm)
                (by rw [a3, hsum]; show _ + totalSize items + 1 ≤ _; omega)
              exact ⟨l2, b1⟩
        · rw [if_neg (by omega)]
          refine ⟨?_, fun _ => ⟨_, rfl⟩⟩
          rintro (h | h | h)
          · exact absurd hc h
          · exact absurd h h7
          · exact absurd h.1 h8
    · rw [addPacked_clash h3 ds hd3 hc h5 (by rw [hsum]; omega)]
      exact ⟨fun _ => rfl, fun h => absurd (.inl hc) h⟩

/-! ## The records of the extra bytes VLR -/

theorem forall₂_mapM {α γ : Type} {g : α → Out γ} : ∀ {xs : List α} {ys : List γ},
    xs.mapM g = .ok ys ↔ List.Forall₂ (fun x y => g x = .ok y) xs ys
  | [], ys => by
    constructor
    · intro h; cases h; exact .nil
    · intro h; cases h; rfl
  | x :: xs, ys => by
    rw [List.mapM_cons]
    constructor
    · intro h
      cases e : g x with
      | error f => rw [e] at h; cases h
      | ok y =>
        rw [e] at h
        cases e2 : xs.mapM g with
        | error f => rw [e2] at h; cases h
        | ok zs => rw [e2] at h; cases h; exact .cons e (forall₂_mapM.1 e2)
    · intro h
      cases h with
      | cons h1 h2 => rw [h1, forall₂_mapM.2 h2]; rfl

/-- What an entry says. -/
def sayOf (e : ExtraEntry) : String × Byte := (e.name, e.dataType.toU8)

theorem orErr_ok {α : Type} {x : Option α} {a : α} : orErr x = .ok a ↔ x = some a := by
  cases x with
  | none => exact ⟨fun h => (nomatch h), fun h => (nomatch h)⟩
  | some b => exact ⟨fun h => by cases h; rfl, fun h => by cases h; rfl⟩

theorem entry_bind {r : RawEntry} {e : ExtraEntry} : entryOfRaw r = .ok e ↔
    utf8 e.name = r.name.takeWhile (· ≠ 0) ∧ utf8 e.description = r.description.takeWhile (· ≠ 0) ∧
      e = ⟨.ofU8 r.dataType, r.options, e.name, r.scale, r.offset, e.description, r.min, r.max, r.noData⟩ := by
  unfold entryOfRaw
  rw [lasString_eq, lasString_eq, ← fromUtf8_eq, ← fromUtf8_eq]
  cases fromUtf8 (r.description.takeWhile (· ≠ 0)) with
  | none => exact ⟨fun h => (nomatch h), fun h => (nomatch h.2.1)⟩
  | some d =>
    cases fromUtf8 (r.name.takeWhile (· ≠ 0)) with
    | none => exact ⟨fun h => (nomatch h), fun h => (nomatch h.1)⟩
    | some n =>
      constructor
      · intro h; cases h; exact ⟨rfl, rfl, rfl⟩
      · rintro ⟨h1, h2, h3⟩
        cases h1
        cases h2
        rw [h3]
        rfl

theorem code_byte {b : Bytes} (h : 3 ≤ b.length) : (b.drop 2).take 1 = [BitVec.ofNat 8 (leNat ((b.drop 2).take 1))] := by
  match b, h with
  | x :: y :: z :: rest, _ =>
    show [z] = [BitVec.ofNat 8 (leNat [z])]
    simp [leNat]

theorem record_says {b : Bytes} (h : 3 ≤ b.length) {v : String × Byte} :
    RecordSays b v ↔ ∃ e, entryOfRaw (.ofBytes b) = .ok e ∧ sayOf e = v := by
  constructor
  · intro hs
    obtain ⟨d, hd⟩ := hs.description
    refine ⟨⟨.ofU8 (RawEntry.ofBytes b).dataType, (RawEntry.ofBytes b).options, v.1, (RawEntry.ofBytes b).scale,
      (RawEntry.ofBytes b).offset, d, (RawEntry.ofBytes b).min, (RawEntry.ofBytes b).max, (RawEntry.ofBytes b).noData⟩,
      entry_bind.2 ⟨hs.name, hd, rfl⟩, ?_⟩
    have := hs.code
    rw [code_byte h] at this
    unfold sayOf
    dsimp only
    rw [C44_type_codes]
    exact Prod.ext rfl (List.head_eq_of_cons_eq this)
  · rintro ⟨e, he, rfl⟩
    obtain ⟨h1, h2, h3⟩ := entry_bind.1 he
    refine ⟨?_, h1, _, h2⟩
    rw [code_byte h]
    unfold sayOf
    dsimp only
    rw [h3]
    dsimp only
    rw [C44_type_codes]
    rfl

theorem extra_vlr {v : Vlr} (hk : KnownVlr 4 v) : extraBytesOfVlr v =
    if 192 ∣ v.data.length then
      if 8 ∣ v.dataAddr then (extraRecords v.data).mapM fun b => entryOfRaw (.ofBytes b) else .error .panic
    else .error .err := by
  by_cases h : 192 ∣ v.data.length
  · unfold extraBytesOfVlr
    rw [bailIf_false (by simpa [knownVlrUserId] using hk.1), bailIf_false (by simpa [extraBytesRecordId] using hk.2),
      bailIf_false (by simpa [rawEntrySize] using Nat.mod_eq_zero_of_dvd h), if_pos h]
    show (castEntries v.data v.dataAddr).bind _ = _
    unfold castEntries
    by_cases ha : 8 ∣ v.dataAddr
    · rw [if_neg (by simpa using Nat.mod_eq_zero_of_dvd ha), if_neg (by simpa [rawEntrySize] using Nat.mod_eq_zero_of_dvd h),
        if_pos ha]
      show List.mapM entryOfRaw _ = _
      unfold extraRecords
      rw [List.mapM_map, List.mapM_map]
      refine congrArg (fun g => List.mapM g _) (funext fun i => ?_)
      show entryOfRaw (.ofBytes (List.take 192 (List.drop (i * 192) v.data))) = _
      rw [Nat.mul_comm]
      rfl
    · rw [if_pos (fun hc => ha (Nat.dvd_of_mod_eq_zero hc)), if_neg ha]
      rfl
  · rw [C44_malformed v (.inr (.inr h)), if_neg h]

theorem records_long {data : Bytes} (h : 192 ∣ data.length) : ∀ b ∈ extraRecords data, 3 ≤ b.length := by
  intro b hb
  obtain ⟨i, hi, rfl⟩ := List.mem_map.1 hb
  rw [List.mem_range] at hi
  obtain ⟨k, hk⟩ := h
  rw [List.length_take, List.length_drop]
  rw [hk, Nat.mul_div_cancel_left _ (by decide)] at hi
  omega

theorem forall₂_says {bs : List Bytes} (hb : ∀ b ∈ bs, 3 ≤ b.length) {values : List (String × Byte)} :
    List.Forall₂ RecordSays bs values ↔ ∃ es, bs.mapM (fun b => entryOfRaw (.ofBytes b)) = .ok es ∧ es.map sayOf = values := by
  constructor
  · intro h
    induction h with
    | nil => exact ⟨[], rfl, rfl⟩
    | cons h1 h2 ih =>
      obtain ⟨e, he, hv⟩ := (record_says (hb _ (by simp))).1 h1
      obtain ⟨es, hes, hvs⟩ := ih fun b h => hb b (by simp [h])
      exact ⟨e :: es, by rw [List.mapM_cons, he, hes]; rfl, by rw [List.map_cons, hv, hvs]⟩
  · rintro ⟨es, he, rfl⟩
    rw [List.forall₂_map_right_iff]
    have := forall₂_mapM.1 he
    rw [List.forall₂_iff_get] at this ⊢
    refine ⟨this.1, fun i h1 h2 => ?_⟩
    exact (record_says (hb _ (List.get_mem _ _))).2 ⟨_, this.2 i h1 h2, rfl⟩

/-- What the extra bytes VLR describes is what is read. -/
theorem find_describes {h : FileHeader} {values : List (String × Byte)} :
    Describes h values ↔ ∃ e, findVlr h.vlrs 4 extraBytesOfVlr = .ok e ∧ (e.getD []).map sayOf = values := by
  constructor
  · rintro (⟨hn, rfl⟩ | ⟨v, hv, h1, h2, h3⟩)
    · exact ⟨none, findVlr_none hn _, rfl⟩
    · obtain ⟨es, e1, e2⟩ := (forall₂_says (records_long h1)).1 h3
      refine ⟨some es, ?_, e2⟩
      rw [findVlr_first hv, extra_vlr (first_known hv), if_pos h1, if_pos h2, e1]
      rfl
  · rintro ⟨e, he, rfl⟩
    rcases first_or_none h.vlrs 4 with hn | ⟨v, hv⟩
    · rw [findVlr_none hn] at he
      cases he
      exact .inl ⟨hn, rfl⟩
    · right
      rw [findVlr_first hv, extra_vlr (first_known hv)] at he
      by_cases h1 : 192 ∣ v.data.length
      · by_cases h2 : 8 ∣ v.dataAddr
        · rw [if_pos h1, if_pos h2] at he
          cases e1 : (extraRecords v.data).mapM fun b => entryOfRaw (.ofBytes b) with
          | error f => rw [e1] at he; cases he
          | ok es =>
            rw [e1] at he
            cases he
            exact ⟨v, hv, h1, h2, (forall₂_says (records_long h1)).2 ⟨es, e1, rfl⟩⟩
        · rw [if_pos h1, if_neg h2] at he; cases he
      · rw [if_neg h1] at he; cases he

/-- When it is neither read nor unaligned, it is an error. -/
theorem find_extra (h : FileHeader) :
    ((∃ v, FirstVlr h.vlrs 4 v ∧ 192 ∣ v.data.length ∧ ¬ 8 ∣ v.dataAddr) ∧
      findVlr h.vlrs 4 extraBytesOfVlr = .error .panic) ∨
    ((¬ ∃ v, FirstVlr h.vlrs 4 v ∧ 192 ∣ v.data.length ∧ ¬ 8 ∣ v.dataAddr) ∧
      Returns (findVlr h.vlrs 4 extraBytesOfVlr)) := by
  rcases first_or_none h.vlrs 4 with hn | ⟨v, hv⟩
  · right
    refine ⟨?_, by rw [findVlr_none hn]; exact returns_ok _⟩
    rintro ⟨v, hv, -⟩
    obtain ⟨a, b, e, hk, -⟩ := hv
    exact hn v (by rw [e]; simp) hk
  · have key : ∀ u, FirstVlr h.vlrs 4 u → u = v := fun u hu => by
      have h1 := find_first.2 hu
      rw [find_first.2 hv] at h1
      cases h1
      rfl
    rw [findVlr_first hv, extra_vlr (first_known hv)]
    by_cases h1 : 192 ∣ v.data.length
    · by_cases h2 : 8 ∣ v.dataAddr
      · right
        refine ⟨?_, ?_⟩
        · rintro ⟨u, hu, -, h3⟩
          rw [key u hu] at h3
          exact h3 h2
        · rw [if_pos h1, if_pos h2]
          have : Returns ((extraRecords v.data).mapM fun b => entryOfRaw (.ofBytes b)) := by
            refine returns_mapM _ fun b _ => ?_
            unfold entryOfRaw
            rw [lasString_eq, lasString_eq]
            exact returns_bind (returns_orErr _) fun _ _ => returns_bind (returns_orErr _) fun _ _ => returns_pure _
          rcases this with ⟨es, e⟩ | e
          · rw [e]; exact .inl ⟨_, rfl⟩
          · rw [e]; exact .inr rfl
      · left
        rw [if_pos h1, if_neg h2]
        exact ⟨⟨v, hv, h1, h2⟩, rfl⟩
    · right
      refine ⟨?_, by rw [if_neg h1]; exact .inr rfl⟩
      rintro ⟨u, hu, h3, -⟩
      rw [key u hu] at h3
      exact h1 h3

theorem code_lengths (x : Byte) : (ExtraType.ofU8 x).size = codeLength x := by
  have key : ∀ n : Fin 256, (ExtraType.ofU8 (BitVec.ofFin n)).size = codeLength (BitVec.ofFin n) := by decide +kernel
  exact key x.toFin

theorem items_eq {es : List ExtraEntry} (h : ∀ e ∈ es, TypeFits e.dataType) :
    es.mapM describedItem = valueItems (es.map sayOf) := by
  unfold valueItems
  rw [List.mapM_map]
  induction es with
  | nil => rfl
  | cons e es ih =>
    rw [List.mapM_cons, List.mapM_cons, ih fun e h' => h e (by simp [h'])]
    have : describedItem e = ((fun v : String × Byte => (codeLength v.2).map (v.1, ·)) ∘ sayOf) e := by
      show e.dataType.size.map _ = (codeLength e.dataType.toU8).map _
      rw [← code_lengths, (C44_types _).2 (h e (by simp))]
      rfl
    rw [this]

/-- The values of a VLR whose length fits its field are few. -/
theorem described_few {h : FileHeader} (hl : ∀ v ∈ h.vlrs, v.data.length < 2 ^ 16) {e : Option (List ExtraEntry)}
    (he : findVlr h.vlrs 4 extraBytesOfVlr = .ok e) :
    (e.getD []).length ≤ 341 ∧ ∀ x ∈ e.getD [], TypeFits x.dataType := by
  rcases first_or_none h.vlrs 4 with hn | ⟨v, hv⟩
  · rw [findVlr_none hn] at he
    cases he
    simp
  · rw [findVlr_first hv] at he
    cases e1 : extraBytesOfVlr v with
    | error f => rw [e1] at he; cases he
    | ok es =>
      rw [e1] at he
      cases he
      obtain ⟨h1, h2⟩ := C44_read_entries_fit v es e1
      obtain ⟨a, b, e2, -⟩ := hv
      have := hl v (by rw [e2]; simp)
      exact ⟨by show es.length ≤ 341; omega, fun x hx => (h2 x hx).type⟩

theorem items_small {es : List ExtraEntry} {items : List (String × Nat)} (h : es.mapM describedItem = some items) :
    totalSize items ≤ 8 * es.length := by
  induction es generalizing items with
  | nil => cases h; decide
  | cons e es ih =>
    rw [List.mapM_cons] at h
    cases hd : describedItem e with
    | none => rw [hd] at h; cases h
    | some p =>
      rw [hd] at h
      cases hes : es.mapM describedItem with
      | none => rw [hes] at h; cases h
      | some ps =>
        rw [hes] at h
        cases h
        have h1 := ih hes
        have h2 : p.2 ≤ 8 := by
          unfold describedItem at hd
          have key : ∀ t : ExtraType, ∀ k, t.size = some k → k ≤ 8 := by
            intro t k hk
            cases t <;> first | (cases hk; decide) | cases hk
          cases hs : e.dataType.size with
          | none => rw [hs] at hd; cases hd
          | some k => rw [hs] at hd; cases hd; exact key _ _ hs
        unfold totalSize at h1 ⊢
        rw [List.map_cons, List.sum_cons, List.length_cons]
        omega

/-! ## Opening -/

theorem clashes_iff {n : Nat} (hn : n ≤ 10) (extra : Nat) (exact : Bool) (items : List (String × Nat)) :
    Clashes n extra exact items ↔
      LayoutClashes (if exact then (lasItems n).map (·.1) else ((lasItems n).flatMap expandItem).map (·.1)) extra items ∨
      LayoutClashes ((lasItems n).map (·.1)) extra items := by
  obtain ⟨f, l, hf, -⟩ := base_tight n hn true
  obtain ⟨_, _, _, _, h1, h2⟩ := base_names hn hf true
  obtain ⟨_, _, _, _, h3, h4⟩ := base_names hn hf false
  rw [h2, if_pos rfl] at h1
  rw [h4, if_neg (by decide)] at h3
  have key : ∀ taken : List String, taken.Nodup → ((taken ++ items.map (·.1)).Nodup ↔
      (items.map (·.1)).Nodup ∧ ∀ i ∈ items, i.1 ∉ taken) := by
    intro taken ht
    rw [List.nodup_append]
    constructor
    · rintro ⟨-, h1, h2⟩
      exact ⟨h1, fun i hi hc => h2 _ hc _ (List.mem_map_of_mem hi) rfl⟩
    · rintro ⟨h1, h2⟩
      refine ⟨ht, h1, fun a ha b hb e => ?_⟩
      obtain ⟨i, hi, rfl⟩ := List.mem_map.1 hb
      exact h2 i hi (e ▸ ha)
  unfold Clashes LayoutClashes namesInUse totalSize
  rw [key _ h1]
  cases exact with
  | true =>
    rw [if_pos rfl, if_pos rfl, key _ h1, List.append_nil]
    grind
  | false =>
    rw [if_neg (by decide), if_neg (by decide), key _ h3]
    simp only [List.mem_append]
    grind

/-- From the metadata to the reader. -/
theorem ofHeader_outcome {σ : Type} [RecordSource σ] {n : Nat} (hn : n ≤ 10) {f : Format} (hf : Format.new n = .ok f)
    {extra : Nat} (hx : extra < 2 ^ 16) (vlr : Option (List ExtraEntry)) (hs : (vlr.getD []).length ≤ 341)
    (s : σ) (count : Nat) (t : Transforms) (offset size : Nat) (exact : Bool) :
    (0 < extra → (∃ items, (vlr.getD []).mapM describedItem = some items ∧ Clashes n extra exact items) →
      RawReader.ofHeader s (fileWith f extra vlr) count t offset size exact = .error .panic) ∧
    ((extra = 0 ∨ ∃ items, (vlr.getD []).mapM describedItem = some items ∧ ¬ Clashes n extra exact items) →
      ∃ r, RawReader.ofHeader s (fileWith f extra vlr) count t offset size exact = .ok r) ∧
    (0 < extra → (vlr.getD []).mapM describedItem = none →
      RawReader.ofHeader s (fileWith f extra vlr) count t offset size exact = .error .err) := by
  unfold RawReader.ofHeader
  by_cases h0 : extra = 0
  · subst h0
    refine ⟨fun h => absurd h (by decide), fun _ => ?_, fun h => absurd h (by decide)⟩
    have key : ∀ ex, ∃ l, pointLayoutFromMetadata (fileWith f 0 vlr) ex = .ok l := by
      intro ex
      obtain ⟨base, h2, -⟩ := base_names hn hf ex
      refine ⟨base, ?_⟩
      unfold pointLayoutFromMetadata fileWith
      dsimp only
      have hb : pointLayoutFromFormat { f with extraBytes := 0 } ex = .ok base := h2
      rw [hb]
      rfl
    obtain ⟨l1, e1⟩ := key exact
    obtain ⟨l2, e2⟩ := key true
    rw [e1, e2]
    exact ⟨_, rfl⟩
  · have k1 := layout_outcome hn hf exact (by omega) hx vlr
    have k2 := layout_outcome hn hf true (by omega) hx vlr
    cases hi : (vlr.getD []).mapM describedItem with
    | none =>
      rw [hi] at k1 k2
      dsimp only at k1
      rw [k1]
      refine ⟨?_, ?_, fun _ _ => rfl⟩
      · rintro _ ⟨items, h, -⟩; cases h
      · rintro (h | ⟨items, h, -⟩)
        · exact absurd h h0
        · cases h
    | some items =>
      rw [hi] at k1 k2
      have hsm := items_small hi
      have k1 := k1 (by omega)
      have k2 := k2 (by omega)
      rw [if_pos rfl] at k2
      have hc := clashes_iff hn extra exact items
      refine ⟨?_, ?_, fun _ h => (nomatch h)⟩
      · rintro _ ⟨items', h, hcl⟩
        cases h
        by_cases hl : LayoutClashes (if exact then (lasItems n).map (·.1) else ((lasItems n).flatMap expandItem).map (·.1))
          extra items
        · rw [k1.1 hl]; rfl
        · obtain ⟨l, e⟩ := k1.2 hl
          rw [e, k2.1 ((hc.1 hcl).resolve_left hl)]
          rfl
      · rintro (h | ⟨items', h, hcl⟩)
        · exact absurd h h0
        · cases h
          rw [hc, not_or] at hcl
          obtain ⟨l1, e1⟩ := k1.2 hcl.1
          obtain ⟨l2, e2⟩ := k2.2 hcl.2
          rw [e1, e2]
          exact ⟨_, rfl⟩

/-- From the header to the metadata. -/
theorem metadata_outcome (lossy : Bytes → String) (h : FileHeader) :
    (¬ OtherVlrsFine h → metadataOfHeader lossy h = .error .err) ∧
    (OtherVlrsFine h → ∃ c t, metadataOfHeader lossy h = (findVlr h.vlrs 4 extraBytesOfVlr).map fun e =>
      ⟨⟨h.min, h.max⟩, h.numberOfPoints, h.format, some h, c, t, e⟩) := by
  have h1 : (∃ c, findVlr h.vlrs 0 (classificationOfVlr lossy) = .ok c) ↔
      ∀ v, FirstVlr h.vlrs 0 v → v.data.length = 4096 := by
    rw [findVlr_ok]
    refine forall_congr' fun v => imp_congr_right fun hv => ?_
    rw [classes_eq lossy (first_known hv)]
    split <;> simp [*]
  have h2 : (∃ t, findVlr h.vlrs 3 textAreaOfVlr = .ok t) ↔ ∀ v, FirstVlr h.vlrs 3 v → ∃ s, utf8 s = v.data := by
    rw [findVlr_ok]
    refine forall_congr' fun v => imp_congr_right fun hv => ?_
    rw [text_eq (first_known hv)]
    refine exists_congr fun s => ?_
    rw [← fromUtf8_eq]
    cases fromUtf8 v.data <;> simp [orErr]
  have r1 : Returns (findVlr h.vlrs 0 (classificationOfVlr lossy)) := by
    rcases first_or_none h.vlrs 0 with hn | ⟨v, hv⟩
    · rw [findVlr_none hn]; exact returns_ok _
    · rw [findVlr_first hv, classes_eq lossy (first_known hv)]
      split
      · exact .inl ⟨_, rfl⟩
      · exact .inr rfl
  have r2 : Returns (findVlr h.vlrs 3 textAreaOfVlr) := by
    rcases first_or_none h.vlrs 3 with hn | ⟨v, hv⟩
    · rw [findVlr_none hn]; exact returns_ok _
    · rw [findVlr_first hv, text_eq (first_known hv)]
      cases fromUtf8 v.data
      · exact .inr rfl
      · exact .inl ⟨_, rfl⟩
  unfold OtherVlrsFine
  rw [← h1, ← h2]
  unfold metadataOfHeader
  show (_ → (findVlr h.vlrs 0 _).bind _ = _) ∧ (_ → ∃ c t, (findVlr h.vlrs 0 _).bind _ = _)
  rcases r1 with ⟨c, e1⟩ | e1
  · rw [e1]
    show (_ → (findVlr h.vlrs 3 _).bind _ = _) ∧ (_ → ∃ c t, (findVlr h.vlrs 3 _).bind _ = _)
    rcases r2 with ⟨t, e2⟩ | e2
    · rw [e2]
      refine ⟨fun hc => absurd ⟨⟨c, rfl⟩, t, rfl⟩ hc, fun _ => ⟨c, t, ?_⟩⟩
      show (findVlr h.vlrs 4 _).bind _ = _
      cases findVlr h.vlrs 4 extraBytesOfVlr <;> rfl
    · rw [e2]
      exact ⟨fun _ => rfl, fun hc => by obtain ⟨-, t, ht⟩ := hc; cases ht⟩
  · rw [e1]
    exact ⟨fun _ => rfl, fun hc => by obtain ⟨⟨c, ht⟩, -⟩ := hc; cases ht⟩

/-- The whole way, for both kinds of readers. -/
theorem open_outcome {σ : Type} [RecordSource σ] (lossy : Bytes → String) {n extra : Nat} {h : FileHeader}
    (hh : HeaderOf n extra h) (s : σ) (t : Transforms) (offset size : Nat) (exact : Bool) {x : Out (RawReader σ)}
    (hx : x = (metadataOfHeader lossy h).bind fun m =>
      RawReader.ofHeader s m.layoutPart m.pointCount t offset size exact) :
    (OpeningPanics n extra exact h → x = .error .panic) ∧ (OpeningSucceeds n extra exact h → ∃ r, x = .ok r) ∧
      (¬ OpeningPanics n extra exact h → ¬ OpeningSucceeds n extra exact h → x = .error .err) := by
  obtain ⟨m1, m2⟩ := metadata_outcome lossy h
  by_cases hf : OtherVlrsFine h
  · obtain ⟨c, tx, e⟩ := m2 hf
    obtain ⟨f, hnew, hform⟩ := hh.format
    rw [e] at hx
    rcases find_extra h with ⟨hp, ep⟩ | ⟨hp, er⟩
    · rw [ep] at hx
      subst hx
      refine ⟨fun _ => rfl, ?_, fun hc => absurd ⟨hf, .inl hp⟩ hc⟩
      rintro ⟨-, values, hd, -⟩
      obtain ⟨e', he', -⟩ := find_describes.1 hd
      rw [ep] at he'
      cases he'
    · rcases er with ⟨vlr, ev⟩ | ev
      · rw [ev] at hx
        obtain ⟨hfew, htypes⟩ := described_few hh.lengths ev
        obtain ⟨o1, o2, o3⟩ := ofHeader_outcome hh.known hnew hh.short vlr hfew s h.numberOfPoints t offset size exact
        have hx' : x = RawReader.ofHeader s (fileWith f extra vlr) h.numberOfPoints t offset size exact := by
          rw [hx]
          show RawReader.ofHeader s ⟨h.format, vlr⟩ _ _ _ _ _ = _
          rw [hform]
          rfl
        rw [← hx'] at o1 o2 o3
        have hu : ∀ values, Describes h values → values = (vlr.getD []).map sayOf := by
          intro values hd
          obtain ⟨e', he', hv⟩ := find_describes.1 hd
          rw [ev] at he'
          cases he'
          exact hv.symm
        have hd := find_describes.2 ⟨vlr, ev, rfl⟩
        rw [items_eq htypes] at o1 o2 o3
        refine ⟨?_, ?_, ?_⟩
        · rintro ⟨-, h1 | ⟨h0, values, items, h1, h2, h3⟩⟩
          · exact absurd h1 hp
          · rw [hu values h1] at h2
            exact o1 h0 ⟨items, h2, h3⟩
        · rintro ⟨-, values, h1, h0 | ⟨items, h2, h3⟩⟩
          · exact o2 (.inl h0)
          · rw [hu values h1] at h2
            exact o2 (.inr ⟨items, h2, h3⟩)
        · intro h1 h2
          have h0 : 0 < extra := by
            by_contra h0
            exact h2 ⟨hf, _, hd, .inl (by omega)⟩
          cases hi : valueItems ((vlr.getD []).map sayOf) with
          | none => exact o3 h0 hi
          | some items =>
            by_cases hcl : Clashes n extra exact items
            · exact absurd ⟨hf, .inr ⟨h0, _, items, hd, hi, hcl⟩⟩ h1
            · exact absurd ⟨hf, _, hd, .inr ⟨items, hi, hcl⟩⟩ h2
      · rw [ev] at hx
        subst hx
        have hnd : ∀ values, ¬ Describes h values := by
          intro values hd
          obtain ⟨e', he', -⟩ := find_describes.1 hd
          rw [ev] at he'
          cases he'
        refine ⟨?_, ?_, fun _ _ => rfl⟩
        · rintro ⟨-, h1 | ⟨-, values, items, h1, -⟩⟩
          · exact absurd h1 hp
          · exact absurd h1 (hnd values)
        · rintro ⟨-, values, h1, -⟩
          exact absurd h1 (hnd values)
  · rw [m1 hf] at hx
    subst hx
    exact ⟨fun h => absurd h.1 hf, fun h => absurd h.1 hf, fun _ _ => rfl⟩

/-- **C94** for LAS files: for every header and every list of VLRs, opening the file panics, succeeds or gives an error
    exactly as specified. -/
theorem C94_las (lossy : Bytes → String) {n extra : Nat} {h : FileHeader} (hh : HeaderOf n extra h) (data : Bytes)
    (t : Transforms) (offset size : Nat) (exact : Bool) :
    (OpeningPanics n extra exact h → openLasFile lossy h data t offset size exact = .error .panic) ∧
    (OpeningSucceeds n extra exact h → ∃ r, openLasFile lossy h data t offset size exact = .ok r) ∧
    (¬ OpeningPanics n extra exact h → ¬ OpeningSucceeds n extra exact h →
      openLasFile lossy h data t offset size exact = .error .err) :=
  open_outcome lossy hh _ t offset size exact rfl

theorem unsupported_iff {n extra : Nat} {h : FileHeader} (hh : HeaderOf n extra h) :
    (h.format.isExtended && h.format.hasWaveform) = decide (9 ≤ n) := by
  obtain ⟨f, hf, e⟩ := hh.format
  rw [e]
  have key : ∀ n : Fin 11, ∃ f, Format.new n = .ok f ∧ (f.isExtended && f.hasWaveform) = decide (9 ≤ n.val) := by
    intro n
    match n with
    | 0 | 1 | 2 | 3 | 4 | 5 | 6 | 7 | 8 | 9 | 10 => exact ⟨_, rfl, rfl⟩
  obtain ⟨f', h1, h2⟩ := key ⟨n, by have := hh.known; omega⟩
  obtain rfl : f = f' := by rw [hf] at h1; cases h1; rfl
  exact h2

/-- **C94** for LAZ files, which must have one of the formats 0 to 8 besides. -/
theorem C94_laz (lossy : Bytes → String) {n extra : Nat} {h : FileHeader} (hh : HeaderOf n extra h) (records : List Bytes)
    (t : Transforms) (offset size : Nat) (exact : Bool) :
    (n ≤ 8 → OpeningPanics n extra exact h → openLazFile lossy h records t offset size exact = .error .panic) ∧
    (n ≤ 8 → OpeningSucceeds n extra exact h → ∃ r, openLazFile lossy h records t offset size exact = .ok r) ∧
    (n ≤ 8 → ¬ OpeningPanics n extra exact h → ¬ OpeningSucceeds n extra exact h →
      openLazFile lossy h records t offset size exact = .error .err) ∧
    (9 ≤ n → openLazFile lossy h records t offset size exact = .error .err) := by
  by_cases hn : 9 ≤ n
  · refine ⟨fun h => by omega, fun h => by omega, fun h => by omega, fun _ => ?_⟩
    unfold openLazFile
    rw [unsupported_iff hh, bailIf_true hn]
    rfl
  · have hx : openLazFile lossy h records t offset size exact = (metadataOfHeader lossy h).bind fun m =>
        RawReader.ofHeader ⟨size, records, 0⟩ m.layoutPart m.pointCount t offset size exact := by
      unfold openLazFile
      rw [unsupported_iff hh, bailIf_false hn]
      show (metadataOfHeader lossy h).bind _ = _
      cases e : metadataOfHeader lossy h with
      | error f => rfl
      | ok m =>
        show openLaz records m.layoutPart m.pointCount t offset size exact = _
        have hm : m.format = h.format := by
          obtain ⟨_, _, _, _, _, _, rfl⟩ := metadata_bind.1 e
          rfl
        unfold openLaz FileMetadata.layoutPart
        dsimp only
        rw [hm, unsupported_iff hh, bailIf_false hn]
        show RawReader.ofHeader _ ⟨h.format, m.extraBytes⟩ _ _ _ _ _ = RawReader.ofHeader _ ⟨m.format, m.extraBytes⟩ _ _ _ _ _
        rw [hm]
    obtain ⟨h1, h2, h3⟩ := open_outcome lossy hh _ t offset size exact hx
    exact ⟨fun _ => h1, fun _ => h2, fun _ => h3, fun h => absurd h hn⟩

/-- A file opens with the default layout only if it opens with the exact one. -/
theorem C94_exact {n extra : Nat} {h : FileHeader} (hs : OpeningSucceeds n extra false h) :
    OpeningSucceeds n extra true h := by
  obtain ⟨h1, values, h2, h3 | ⟨items, h3, h4⟩⟩ := hs
  · exact ⟨h1, values, h2, .inl h3⟩
  · refine ⟨h1, values, h2, .inr ⟨items, h3, fun hc => h4 ?_⟩⟩
    rcases hc with hc | ⟨i, hi, hc⟩ | hc | hc
    · exact .inl hc
    · refine .inr (.inl ⟨i, hi, ?_⟩)
      unfold namesInUse at hc ⊢
      rw [if_pos rfl, List.append_nil] at hc
      exact List.mem_append_left _ hc
    · exact .inr (.inr (.inl hc))
    · exact .inr (.inr (.inr hc))

namespace OpenExample

/-- The record of a value. -/
def valueRecord (name : String) (code : Byte) : Bytes := zeros 2 ++ [code, 0] ++ textField name 32 ++ zeros 156

/-- A file of format 0 with four extra bytes, the description of a value and a comment of another program. -/
def header (name : String) (code : Byte) (addr : Nat) : FileHeader :=
  { VlrExample.header with
    format := ⟨false, false, false, false, false, 4, false⟩
    vlrs := [⟨"Other", 4, [1, 2, 3], 24⟩, ⟨"LASF_Spec", 4, valueRecord name code, addr⟩] }

theorem first_vlr (name : String) (code : Byte) (addr : Nat) :
    FirstVlr (header name code addr).vlrs 4 ⟨"LASF_Spec", 4, valueRecord name code, addr⟩ :=
  ⟨[_], [], rfl, ⟨rfl, rfl⟩, by simp [KnownVlr]⟩

theorem others_fine (name : String) (code : Byte) (addr : Nat) : OtherVlrsFine (header name code addr) := by
  constructor <;>
  · rintro v ⟨a, b, e, hk, -⟩
    have hv : v ∈ (header name code addr).vlrs := by rw [e]; simp
    simp only [header, List.mem_cons, List.not_mem_nil, or_false] at hv
    rcases hv with rfl | rfl
    · exact absurd hk.1 (by decide)
    · exact absurd (show (4 : BitVec 16) = _ from hk.2) (by decide)

theorem describes {name : String} {code : Byte} {addr : Nat} (ha : 8 ∣ addr) (hl : (valueRecord name code).length = 192)
    (hs : RecordSays (valueRecord name code) (name, code)) : Describes (header name code addr) [(name, code)] := by
  refine .inr ⟨_, first_vlr _ _ _, by dsimp only; rw [hl], ha, ?_⟩
  unfold extraRecords
  dsimp only
  rw [hl]
  refine .cons ?_ .nil
  dsimp only
  rw [List.drop_zero, List.take_of_length_le (by rw [hl])]
  exact hs

end OpenExample

open OpenExample

/-- **C94 violated**: a file panics or opens depending on where the bytes of a VLR happen to lie in memory. -/
theorem C94_address_violated (lossy : Bytes → String) (data : Bytes) (t : Transforms)
    (offset size : Nat) (exact : Bool) (name : String) (code : Byte) (hl : (valueRecord name code).length = 192)
    (addr : Nat) (ha : ¬ 8 ∣ addr) : openLasFile lossy (header name code addr) data t offset size exact = .error .panic := by
  refine (C94_las lossy (n := 0) (extra := 4) ⟨by decide, ⟨_, rfl, rfl⟩, by decide, ?_⟩ data t offset size exact).1
    ⟨others_fine _ _ _, .inl ⟨_, first_vlr _ _ _, by dsimp only; rw [hl], ha⟩⟩
  intro v hv
  simp only [header, List.mem_cons, List.not_mem_nil, or_false] at hv
  rcases hv with rfl | rfl
  · decide
  · dsimp only; rw [hl]; decide

/-- A described f32 opens, at an odd address it does not, and with the name of the intensity it does not either. -/
example : HeaderOf 0 4 (header "Height" 9 16) ∧ OpeningSucceeds 0 4 false (header "Height" 9 16) ∧
    OpeningPanics 0 4 false (header "Height" 9 17) ∧ OpeningPanics 0 4 false (header "Intensity" 9 16) := by
  refine ⟨⟨by decide, ⟨_, rfl, rfl⟩, by decide, ?_⟩, ⟨others_fine _ _ _, [("Height", 9)], describes (by decide)
    (by decide +kernel) ⟨rfl, by decide +kernel, "", by decide +kernel⟩, .inr ⟨[("Height", 4)], rfl, ?_⟩⟩,
    ⟨others_fine _ _ _, .inl ⟨_, first_vlr _ _ _, ?_, by decide⟩⟩,
    ⟨others_fine _ _ _, .inr ⟨by decide, [("Intensity", 9)], [("Intensity", 4)], describes (by decide)
      (by decide +kernel) ⟨rfl, by decide +kernel, "", by decide +kernel⟩, rfl, .inr (.inl ⟨_, .head _, by decide⟩)⟩⟩⟩
  · intro v hv
    simp only [header, List.mem_cons, List.not_mem_nil, or_false] at hv
    rcases hv with rfl | rfl <;> decide +kernel
  · rintro (h | ⟨i, hi, h⟩ | h | ⟨h, -⟩)
    · exact h (by decide)
    · simp only [List.mem_singleton] at hi
      subst hi
      revert h
      decide
    · exact absurd h (by decide)
    · exact absurd h (by decide)
  · show 192 ∣ (valueRecord "Height" 9).length
    have : (valueRecord "Height" 9).length = 192 := by decide +kernel
    rw [this]

end Pasture.Props
