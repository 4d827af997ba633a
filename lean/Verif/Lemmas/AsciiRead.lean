import Verif.Lemmas.AsciiFloats
import Verif.Lemmas.AsciiLines
import Verif.Lemmas.Buffers
import Verif.Lemmas.Layout
import Verif.Props.UntypedPoint

/-! # Reading ASCII lines into points -/

namespace Pasture.Ascii

open Spec Spec.Ascii Props

/-! ## Format strings -/

/-- The column a literal stands for. -/
def columnOf : PointDataType → Option Column
  | .skip => none
  | .coordinateX => some ⟨Las.position3D, 0, .f64, false⟩
  | .coordinateY => some ⟨Las.position3D, 1, .f64, false⟩
  | .coordinateZ => some ⟨Las.position3D, 2, .f64, false⟩
  | .intensity => some ⟨Las.intensity, 0, .u16, false⟩
  | .returnNumber => some ⟨Las.returnNumber, 0, .u8, false⟩
  | .numberOfReturns => some ⟨Las.numberOfReturns, 0, .u8, false⟩
  | .classification => some ⟨Las.classification, 0, .u8, false⟩
  | .userData => some ⟨Las.userData, 0, .u8, false⟩
  | .colorR => some ⟨Las.colorRgb, 0, .u16, false⟩
  | .colorG => some ⟨Las.colorRgb, 1, .u16, false⟩
  | .colorB => some ⟨Las.colorRgb, 2, .u16, false⟩
  | .gpsTime => some ⟨Las.gpsTime, 0, .f64, false⟩
  | .pointSourceID => some ⟨Las.pointSourceId, 0, .u16, false⟩
  | .edgeOfFlightLine => some ⟨Las.edgeOfFlightLine, 0, .u8, true⟩
  | .scanDirectionFlag => some ⟨Las.scanDirectionFlag, 0, .u8, true⟩
  | .scanAngleRank => some ⟨Las.scanAngleRank, 0, .i8, false⟩
  | .nir => some ⟨Las.nir, 0, .u16, false⟩

theorem literal_column (c : Char) :
    (∃ t, literal c = .ok t ∧ meaning c = some (columnOf t)) ∨ literal c = .error .err ∧ meaning c = none := by
  unfold literal
  split
  all_goals first
    | exact Or.inl ⟨_, rfl, rfl⟩
    | skip
  refine Or.inr ⟨rfl, ?_⟩
  unfold meaning
  split
  all_goals first
    | rfl
    | contradiction

theorem getParseLayout_from (format : List Char) : ∀ out,
    (∃ ts, forLoop format out (fun out c => do
        let t ← literal c
        pure (out ++ [t])) = .ok (out ++ ts) ∧ format.map meaning = ts.map fun t => some (columnOf t)) ∨
    forLoop format out (fun out c => do
        let t ← literal c
        pure (out ++ [t])) = .error .err ∧ ∃ c ∈ format, meaning c = none := by
  induction format with
  | nil => intro out; exact Or.inl ⟨[], by simp, rfl⟩
  | cons c cs ih =>
    intro out
    rw [forLoop_cons]
    rcases literal_column c with ⟨t, h1, h2⟩ | ⟨h1, h2⟩
    · simp only [h1, bind, Except.bind, pure, Except.pure]
      rcases ih (out ++ [t]) with ⟨ts, h3, h4⟩ | ⟨h3, c', h4, h5⟩
      · refine Or.inl ⟨t :: ts, ?_, by simp [h2, h4]⟩
        simp only [bind, Except.bind, pure, Except.pure] at h3
        rw [h3]; simp
      · refine Or.inr ⟨?_, c', by simp [h4], h5⟩
        simp only [bind, Except.bind, pure, Except.pure] at h3
        exact h3
    · exact Or.inr ⟨by simp only [h1, bind, Except.bind], c, by simp, h2⟩

theorem getParseLayout_ok {format : List Char} (h : ValidFormat format) :
    ∃ ts, getParseLayout format = .ok ts ∧ format.map meaning = ts.map fun t => some (columnOf t) := by
  rcases getParseLayout_from format [] with ⟨ts, h1, h2⟩ | ⟨_, c, h1, h2⟩
  · exact ⟨ts, by simpa [getParseLayout] using h1, h2⟩
  · have := h c h1; rw [h2] at this; cases this

theorem getParseLayout_err {format : List Char} (h : ¬ ValidFormat format) :
    getParseLayout format = .error .err := by
  rcases getParseLayout_from format [] with ⟨ts, h1, h2⟩ | ⟨h1, _⟩
  · refine absurd (fun c hc => ?_) h
    have : meaning c ∈ ts.map fun t => some (columnOf t) := by rw [← h2]; exact List.mem_map_of_mem hc
    obtain ⟨t, _, ht⟩ := List.mem_map.1 this
    rw [← ht]; rfl
  · exact h1

theorem describes_eq {format : List Char} {ts : List PointDataType}
    (h : format.map meaning = ts.map fun t => some (columnOf t)) (i : Nat) :
    describes format i = ts[i]?.bind columnOf := by
  have := congrArg (·[i]?) h
  simp only [List.getElem?_map] at this
  unfold describes
  cases hf : format[i]? <;> cases ht : ts[i]? <;> rw [hf, ht] at this <;> simp at this ⊢
  rw [this]; rfl

/-! ## Columns -/

/-- A column of the table. -/
def IsColumn (c : Column) : Prop := ∃ t, columnOf t = some c

theorem IsColumn.inside {c : Column} (h : IsColumn c) : c.start + c.type.size ≤ c.attr.size := by
  obtain ⟨t, ht⟩ := h
  cases t <;> cases ht <;> decide

theorem IsColumn.type_eq {c c' : Column} (h : IsColumn c) (h' : IsColumn c') (e : c.attr = c'.attr) :
    c.type = c'.type := by
  obtain ⟨t, ht⟩ := h
  obtain ⟨t', ht'⟩ := h'
  cases t <;> cases ht <;> cases t' <;> cases ht' <;> first | rfl | (exact absurd e (by decide))

/-- The value of a column. -/
def valueOf (c : Column) (s : List Char) : Out Num := do
  let n ← parseString c.type s
  bailIf (c.flag = true ∧ n ≠ .int 0 ∧ n ≠ .int 1)
  pure n

theorem parseString_f64 (s : List Char) : parseString .f64 s = (orErr (parseF64 s)).map .double := rfl

theorem parseString_int {p : Prim} (hp : p ≠ .f64) (s : List Char) :
    parseString p s = (orErr (parseInt p s)).map .int := by
  cases p <;> first | rfl | contradiction

theorem valueOf_cases (c : Column) (s : List Char) : (∃ n, valueOf c s = .ok n) ∨ valueOf c s = .error .err := by
  unfold valueOf
  have : (∃ n, parseString c.type s = .ok n) ∨ parseString c.type s = .error .err := by
    by_cases hp : c.type = .f64
    · rw [hp, parseString_f64]
      cases parseF64 s
      · exact Or.inr rfl
      · exact Or.inl ⟨_, rfl⟩
    · rw [parseString_int hp]
      cases parseInt c.type s
      · exact Or.inr rfl
      · exact Or.inl ⟨_, rfl⟩
  rcases this with ⟨n, hn⟩ | hn
  · rw [hn]
    simp only [bind, Except.bind, pure, Except.pure, bailIf]
    by_cases h : c.flag = true ∧ n ≠ .int 0 ∧ n ≠ .int 1
    · simp [h]
    · simp [h]
  · rw [hn]; exact Or.inr rfl

theorem valueOf_reads {c : Column} {s : List Char} {n : Num} (h : valueOf c s = .ok n) : c.Reads s n := by
  unfold valueOf at h
  unfold Column.Reads
  by_cases hp : c.type = .f64
  · rw [if_pos hp]
    rw [hp, parseString_f64] at h
    cases hx : parseF64 s with
    | none => rw [hx] at h; cases h
    | some x =>
      rw [hx] at h
      simp only [orErr, Except.map, bind, Except.bind, pure, Except.pure, bailIf] at h
      split at h
      · cases h
      · exact ⟨x, (Except.ok.inj h).symm, parseF64_sound hx⟩
  · rw [if_neg hp]
    rw [parseString_int hp] at h
    cases hx : parseInt c.type s with
    | none => rw [hx] at h; cases h
    | some x =>
      rw [hx] at h
      simp only [orErr, Except.map, bind, Except.bind, pure, Except.pure, bailIf] at h
      by_cases hb : c.flag = true ∧ Num.int x ≠ .int 0 ∧ Num.int x ≠ .int 1
      · rw [decide_eq_true hb] at h; cases h
      · rw [decide_eq_false hb] at h
        refine ⟨x, (Except.ok.inj h).symm, (parseInt_iff _ _ _).1 hx, fun hf => ?_⟩
        by_cases h0 : x = 0
        · exact Or.inl h0
        · refine Or.inr (Classical.byContradiction fun h1 => hb ⟨hf, ?_, ?_⟩)
          · exact fun e => h0 (Num.int.inj e)
          · exact fun e => h1 (Num.int.inj e)

/-- Columns of type `f64` are not flags. -/
theorem IsColumn.float {c : Column} (h : IsColumn c) (hp : c.type = .f64) : c.flag = false := by
  obtain ⟨t, ht⟩ := h
  cases t <;> cases ht <;> first | rfl | cases hp

theorem valueOf_complete {c : Column} (hc : IsColumn c) {s : List Char} {n : Num} (h : c.Reads s n) :
    ∃ n, valueOf c s = .ok n := by
  unfold valueOf
  unfold Column.Reads at h
  by_cases hp : c.type = .f64
  · rw [if_pos hp] at h
    obtain ⟨x, _, hx⟩ := h
    obtain ⟨y, hy, _⟩ := parseF64_complete hx
    rw [hp, parseString_f64, hy]
    refine ⟨.double y, ?_⟩
    simp [hc.float hp, orErr, Except.map, bind, Except.bind, pure, Except.pure, bailIf]
  · rw [if_neg hp] at h
    obtain ⟨z, _, hz, hf⟩ := h
    rw [parseString_int hp, (parseInt_iff _ _ _).2 hz]
    refine ⟨.int z, ?_⟩
    simp only [orErr, Except.map, bind, Except.bind, pure, Except.pure, bailIf]
    rw [decide_eq_false]
    · rfl
    · rintro ⟨h1, h2, h3⟩
      rcases hf h1 with rfl | rfl
      · exact h2 rfl
      · exact h3 rfl

/-- Where a column goes in a record of layout `l`. -/
def place (l : PointLayout) (c : Column) (n : Num) (buffer : Bytes) : Bytes :=
  match l.attributes.find? fun m => m.definition = c.attr with
  | some m => overwrite buffer (m.offset + c.start) (writeNum c.type n)
  | none => buffer

theorem offsetOf_eq (l : PointLayout) (d : AttrDef) :
    l.offsetOf d = (l.attributes.find? fun m => m.definition = d).map Member.offset := by
  unfold PointLayout.offsetOf
  congr 2
  funext m
  exact matchesDef_iff d m

theorem inside_column {l : PointLayout} (hl : Solid l) {c : Column} (hc : IsColumn c) {m : Member}
    (hm : m ∈ l.attributes) (he : m.definition = c.attr) : m.offset + c.start + c.type.size ≤ l.size := by
  have h1 := hl.inside m hm
  have h2 := hc.inside
  have h3 : m.size = c.attr.size := by rw [← he]; rfl
  omega

/-- The common end of the functions `parse_to_point_*`. -/
theorem store_eq {l : PointLayout} (hl : Solid l) {c : Column} (hc : IsColumn c) {buffer : Bytes}
    (hb : buffer.length = l.size) (n : Num) :
    (match l.offsetOf c.attr with
      | some start => do
        let buffer ← cursorWrite buffer (start + c.start) (writeNum c.type n)
        pure (⟨l, buffer⟩ : UntypedPoint)
      | none => pure ⟨l, buffer⟩) = (.ok ⟨l, place l c n buffer⟩ : Out UntypedPoint) := by
  rw [offsetOf_eq]
  unfold place
  cases hf : l.attributes.find? fun m => m.definition = c.attr with
  | none => rfl
  | some m =>
    obtain ⟨hm, he⟩ := find_def_some hf
    have := inside_column hl hc hm he
    simp only [Option.map_some, cursorWrite, writeNum_length]
    rw [if_pos (by omega)]
    rfl

theorem parseColumn_eq {l : PointLayout} (hl : Solid l) {buffer : Bytes} (hb : buffer.length = l.size)
    (t : PointDataType) (s : List Char) :
    parseColumn ⟨l, buffer⟩ t s = match columnOf t with
      | none => .ok ⟨l, buffer⟩
      | some c => (valueOf c s).map fun n => ⟨l, place l c n buffer⟩ := by
  have plain : ∀ c : Column, IsColumn c → c.flag = false →
      parseToPoint c.type ⟨l, buffer⟩ c.attr c.start s =
        (valueOf c s).map fun n => ⟨l, place l c n buffer⟩ := by
    intro c hc hf
    unfold parseToPoint valueOf
    cases hp : parseString c.type s with
    | error e => rfl
    | ok n =>
      simp only [bind, Except.bind, hf, bailIf, pure, Except.pure]
      exact store_eq hl hc hb n
  have flag : ∀ c : Column, IsColumn c → c.flag = true → c.type = .u8 →
      parseToPointBool ⟨l, buffer⟩ c.attr c.start s =
        (valueOf c s).map fun n => ⟨l, place l c n buffer⟩ := by
    intro c hc hf hu
    unfold parseToPointBool valueOf
    have := store_eq hl hc hb
    rw [hu] at this ⊢
    cases hp : parseString .u8 s with
    | error e => rfl
    | ok n =>
      simp only [bind, Except.bind, hf, bailIf, pure, Except.pure, true_and]
      split
      · rfl
      · exact this n
  cases h : columnOf t with
  | none => cases t <;> first | rfl | cases h
  | some c =>
    have h1 := plain c ⟨t, h⟩
    have h2 := flag c ⟨t, h⟩
    cases t <;> cases h <;> first | exact h1 rfl | exact h2 rfl rfl

/-! ## Lines -/

/-- The values of the columns are where they belong; a later column wins. -/
def Filled (l : PointLayout) (done : List (Option Column × List Char)) (buffer : Bytes) : Prop :=
  ∀ i c s m, done[i]? = some (some c, s) → m ∈ l.attributes → m.definition = c.attr →
    (∀ (j : Nat) c' s', i < j → done[j]? = some (some c', s') → ¬ (c'.attr = c.attr ∧ c'.component = c.component)) →
    ∃ n, valueOf c s = .ok n ∧ window buffer (m.offset + c.start) c.type.size = writeNum c.type n

/-- Bytes no column describes are zero. -/
def Blank (l : PointLayout) (all : List (Option Column)) (buffer : Bytes) : Prop :=
  ∀ m ∈ l.attributes, ∀ k < m.size,
    (∀ c, some c ∈ all → c.attr = m.definition → ¬ (c.start ≤ k ∧ k < c.start + c.type.size)) →
    window buffer (m.offset + k) 1 = [0]

theorem place_length {l : PointLayout} (hl : Solid l) {c : Column} (hc : IsColumn c) {buffer : Bytes}
    (hb : buffer.length = l.size) (n : Num) : (place l c n buffer).length = l.size := by
  unfold place
  cases hf : l.attributes.find? fun m => m.definition = c.attr with
  | none => exact hb
  | some m =>
    obtain ⟨hm, he⟩ := find_def_some hf
    have := inside_column hl hc hm he
    simp only
    rw [length_overwrite (by rw [writeNum_length]; omega), hb]

theorem member_unique {l : PointLayout} (hl : Solid l) {m m' : Member} (hm : m ∈ l.attributes)
    (hm' : m' ∈ l.attributes) (h : m.definition = m'.definition) : m = m' := by
  have h1 := find_def_mem hl hm
  have h2 := find_def_mem hl hm'
  rw [h] at h1
  exact Option.some.inj (h1.symm.trans h2)

/-- Two columns with different attribute or component do not overlap. -/
theorem columns_apart {l : PointLayout} (hl : Solid l) {c c' : Column} (hc : IsColumn c) (hc' : IsColumn c')
    {m m' : Member} (hm : m ∈ l.attributes) (hm' : m' ∈ l.attributes) (he : m.definition = c.attr)
    (he' : m'.definition = c'.attr) (h : ¬ (c'.attr = c.attr ∧ c'.component = c.component)) :
    m'.offset + c'.start + c'.type.size ≤ m.offset + c.start ∨
      m.offset + c.start + c.type.size ≤ m'.offset + c'.start := by
  by_cases ha : c'.attr = c.attr
  · have hm2 : m' = m := member_unique hl hm' hm (by rw [he, he', ha])
    subst hm2
    have ht := hc'.type_eq hc ha
    unfold Column.start
    rw [ht]
    rcases Nat.lt_or_gt_of_ne fun h2 => h ⟨ha, h2⟩ with h2 | h2
    · have := Nat.mul_le_mul_right c.type.size (Nat.succ_le_of_lt h2)
      rw [Nat.succ_mul] at this
      omega
    · have := Nat.mul_le_mul_right c.type.size (Nat.succ_le_of_lt h2)
      rw [Nat.succ_mul] at this
      omega
  · have hne : m ≠ m' := fun e => ha (by rw [← he', ← he, e])
    have h1 := hc.inside
    have h2 := hc'.inside
    have h3 : m.size = c.attr.size := by rw [← he]; rfl
    have h4 : m'.size = c'.attr.size := by rw [← he']; rfl
    have := Pasture.PointLayout.pairwise_mem (fun h => h.symm) hl.apart hm hm' hne
    omega

theorem Filled.step {l : PointLayout} (hl : Solid l) {done : List (Option Column × List Char)} {buffer : Bytes}
    (hb : buffer.length = l.size) (hd : ∀ x ∈ done, ∀ c, x.1 = some c → IsColumn c) (h : Filled l done buffer)
    {c : Column} (hc : IsColumn c) {s : List Char} {n : Num} (hn : valueOf c s = .ok n) :
    Filled l (done ++ [(some c, s)]) (place l c n buffer) := by
  intro i c' s' m hi hm he hlast
  by_cases hlt : i < done.length
  · rw [List.getElem?_append_left hlt] at hi
    have hne := hlast done.length c s hlt (by simp)
    obtain ⟨n', h1, h2⟩ := h i c' s' m hi hm he (fun j c'' s'' hj hj' =>
      hlast j c'' s'' hj (by
        rw [List.getElem?_append_left (List.getElem?_eq_some_iff.1 hj').1]; exact hj'))
    refine ⟨n', h1, ?_⟩
    rw [← h2]
    unfold place
    cases hf : l.attributes.find? fun m => m.definition = c.attr with
    | none => rfl
    | some m' =>
      obtain ⟨hm', he'⟩ := find_def_some hf
      have hc' := hd _ (List.mem_of_getElem? hi) c' rfl
      have h3 := inside_column hl hc hm' he'
      apply window_overwrite_apart
      · rw [writeNum_length]; omega
      · rw [writeNum_length]
        exact columns_apart hl hc' hc hm hm' he he' hne
  · have hi2 : i = done.length := by
      have := (List.getElem?_eq_some_iff.1 hi).1
      simp at this
      omega
    subst hi2
    rw [List.getElem?_append_right (by omega)] at hi
    simp at hi
    obtain ⟨rfl, rfl⟩ := hi
    refine ⟨n, hn, ?_⟩
    unfold place
    have hf : l.attributes.find? (fun m => m.definition = c.attr) = some m := by
      rw [← he]; exact find_def_mem hl hm
    rw [hf]
    have h3 := inside_column hl hc hm he
    have := window_overwrite_same (bytes := buffer) (v := writeNum c.type n) (o := m.offset + c.start)
      (by rw [writeNum_length]; omega)
    rw [writeNum_length] at this
    exact this

theorem Filled.skip {l : PointLayout} {done : List (Option Column × List Char)} {buffer : Bytes}
    (h : Filled l done buffer) (s : List Char) : Filled l (done ++ [(none, s)]) buffer := by
  intro i c' s' m hi hm he hlast
  by_cases hlt : i < done.length
  · rw [List.getElem?_append_left hlt] at hi
    exact h i c' s' m hi hm he (fun j c'' s'' hj hj' =>
      hlast j c'' s'' hj (by
        rw [List.getElem?_append_left (List.getElem?_eq_some_iff.1 hj').1]; exact hj'))
  · rw [List.getElem?_append_right (by omega)] at hi
    have := (List.getElem?_eq_some_iff.1 hi).1
    have h0 : i - done.length = 0 := by simp at this; omega
    rw [h0] at hi
    simp at hi

theorem Blank.step {l : PointLayout} (hl : Solid l) {all : List (Option Column)} {buffer : Bytes}
    (hb : buffer.length = l.size) (h : Blank l all buffer) {c : Column} (hc : IsColumn c) (hmem : some c ∈ all)
    (n : Num) : Blank l all (place l c n buffer) := by
  intro m hm k hk hno
  rw [← h m hm k hk hno]
  unfold place
  cases hf : l.attributes.find? fun m => m.definition = c.attr with
  | none => rfl
  | some m' =>
    obtain ⟨hm', he'⟩ := find_def_some hf
    have h3 := inside_column hl hc hm' he'
    apply window_overwrite_apart
    · rw [writeNum_length]; omega
    · rw [writeNum_length]
      by_cases hmm : m' = m
      · subst hmm
        have := hno c hmem he'.symm
        omega
      · have := Pasture.PointLayout.pairwise_mem (fun h => h.symm) hl.apart hm hm' (fun e => hmm e.symm)
        have h1 := hc.inside
        have h4 : m'.size = c.attr.size := by rw [← he']; rfl
        omega

/-- The columns are there and readable. -/
def Good (cs : List (Option Column)) (cols : List (List Char)) : Prop :=
  cs.length ≤ cols.length ∧ ∀ (i : Nat) c s, cs[i]? = some (some c) → cols[i]? = some s → ∃ n, valueOf c s = .ok n

theorem parseColumns_ok {l : PointLayout} (hl : Solid l) (all : List (Option Column)) :
    ∀ (ts : List PointDataType) (cols : List (List Char)) (done : List (Option Column × List Char)) (buffer : Bytes),
      buffer.length = l.size → (∀ x ∈ done, ∀ c, x.1 = some c → IsColumn c) → Filled l done buffer →
      Blank l all buffer → (∀ t ∈ ts, columnOf t ∈ all) → Good (ts.map columnOf) cols →
      ∃ out, parseColumns ⟨l, buffer⟩ cols ts = .ok ⟨l, out⟩ ∧ out.length = l.size ∧
        Filled l (done ++ (ts.map columnOf).zip cols) out ∧ Blank l all out := by
  intro ts
  induction ts with
  | nil =>
    intro cols done buffer hb hd hfill hblank _ _
    refine ⟨buffer, ?_, hb, by simpa using hfill, hblank⟩
    cases cols <;> rfl
  | cons t ts ih =>
    intro cols done buffer hb hd hfill hblank hall hgood
    cases cols with
    | nil => have := hgood.1; simp at this
    | cons s cols =>
      have hgood' : Good (ts.map columnOf) cols := by
        refine ⟨by have := hgood.1; simp at this ⊢; omega, fun i c s' h1 h2 => ?_⟩
        exact hgood.2 (i + 1) c s' (by simpa using h1) (by simpa using h2)
      have hall' : ∀ t ∈ ts, columnOf t ∈ all := fun t ht => hall t (by simp [ht])
      have e : parseColumns ⟨l, buffer⟩ (s :: cols) (t :: ts) =
          (parseColumn ⟨l, buffer⟩ t s).bind fun p => parseColumns p cols ts := rfl
      rw [e, parseColumn_eq hl hb]
      cases hc : columnOf t with
      | none =>
        obtain ⟨out, h1, h2, h3, h4⟩ := ih cols (done ++ [(none, s)]) buffer hb
          (by
            intro x hx c hxc
            rcases List.mem_append.1 hx with hx | hx
            · exact hd x hx c hxc
            · rw [List.mem_singleton.1 hx] at hxc; cases hxc)
          (hfill.skip s) hblank hall' hgood'
        exact ⟨out, h1, h2, by simpa [hc] using h3, h4⟩
      | some c =>
        obtain ⟨n, hn⟩ := hgood.2 0 c s (by simp [hc]) (by simp)
        have hic : IsColumn c := ⟨t, hc⟩
        obtain ⟨out, h1, h2, h3, h4⟩ := ih cols (done ++ [(some c, s)]) (place l c n buffer)
          (place_length hl hic hb n)
          (by
            intro x hx c' hxc
            rcases List.mem_append.1 hx with hx | hx
            · exact hd x hx c' hxc
            · rw [List.mem_singleton.1 hx] at hxc; cases hxc; exact hic)
          (hfill.step hl hb hd hic hn) (hblank.step hl hb hic (by rw [← hc]; exact hall t (by simp)) n) hall' hgood'
        refine ⟨out, ?_, h2, by simpa [hc] using h3, h4⟩
        simp only [hn, Except.map, Except.bind]
        exact h1

theorem parseColumns_err {l : PointLayout} (hl : Solid l) :
    ∀ (ts : List PointDataType) (cols : List (List Char)) (buffer : Bytes), buffer.length = l.size →
      ¬ Good (ts.map columnOf) cols → parseColumns ⟨l, buffer⟩ cols ts = .error .err := by
  intro ts
  induction ts with
  | nil => intro cols buffer _ h; exact absurd ⟨by simp, fun i c s h1 => by simp at h1⟩ h
  | cons t ts ih =>
    intro cols buffer hb h
    cases cols with
    | nil => rfl
    | cons s cols =>
      have e : parseColumns ⟨l, buffer⟩ (s :: cols) (t :: ts) =
          (parseColumn ⟨l, buffer⟩ t s).bind fun p => parseColumns p cols ts := rfl
      rw [e, parseColumn_eq hl hb]
      have key : (∀ c, columnOf t = some c → ∃ n, valueOf c s = .ok n) → ¬ Good (ts.map columnOf) cols := by
        intro h1 h2
        refine h ⟨by have := h2.1; simp at this ⊢; omega, ?_⟩
        intro i c s' hi hs
        cases i with
        | zero =>
          simp at hi hs
          subst hs
          exact h1 c hi
        | succ i => exact h2.2 i c s' (by simpa using hi) (by simpa using hs)
      cases hc : columnOf t with
      | none => exact ih cols buffer hb (key (by intro c h; rw [hc] at h; cases h))
      | some c =>
        rcases valueOf_cases c s with ⟨n, hn⟩ | hn
        · simp only [hn, Except.map, Except.bind]
          exact ih cols _ (place_length hl ⟨t, hc⟩ hb n) (key (by
            intro c' h; rw [hc] at h; cases h; exact ⟨n, hn⟩))
        · simp only [hn, Except.map, Except.bind]

/-- A line is read into this record. -/
def LineRecord (l : PointLayout) (ts : List PointDataType) (cols : List (List Char)) (r : Bytes) : Prop :=
  r.length = l.size ∧ Filled l ((ts.map columnOf).zip cols) r ∧ Blank l (ts.map columnOf) r

theorem parsePoint_ok {l : PointLayout} (hl : Solid l) {ts : List PointDataType} {line d : List Char} {buffer : Bytes}
    (hb : buffer.length = l.size) (hblank : Blank l (ts.map columnOf) buffer)
    (hg : Good (ts.map columnOf) (split line d)) :
    ∃ out, parsePoint ⟨l, buffer⟩ line d ts = .ok ⟨l, out⟩ ∧ LineRecord l ts (split line d) out := by
  obtain ⟨out, h1, h2, h3, h4⟩ := parseColumns_ok hl (ts.map columnOf) ts (split line d) [] buffer hb
    (by simp) (fun i c s m hi => by simp at hi) hblank (fun t ht => List.mem_map_of_mem ht) hg
  exact ⟨out, h1, h2, by simpa using h3, h4⟩

theorem blank_zeros {l : PointLayout} (hl : Solid l) (all : List (Option Column)) :
    Blank l all (zeros l.size) := by
  intro m hm k hk _
  have := hl.inside m hm
  unfold window zeros
  rw [List.drop_replicate, List.take_replicate, show min 1 (l.size - (m.offset + k)) = 1 by omega]
  rfl

theorem overwrite_cons {α : Type} (rs news : List α) (r : α) {index : Nat} (h : index < rs.length) :
    overwrite (rs.set index r) (index + 1) news = overwrite rs index (r :: news) := by
  unfold overwrite
  rw [List.take_set, List.drop_set, if_pos (by omega)]
  rw [show index + (r :: news).length = index + 1 + news.length by simp only [List.length_cons]; omega]
  have : (rs.take (index + 1)).set index r = rs.take index ++ [r] := by
    rw [List.take_add_one, List.getElem?_eq_getElem h]
    rw [List.set_append_right _ _ (by simp)]
    simp [Nat.min_eq_left (Nat.le_of_lt h)]
  rw [this]
  simp

theorem overwrite_nil {α : Type} (rs : List α) (index : Nat) : overwrite rs index [] = rs := by
  unfold overwrite; simp

section

variable {β : Type} [OwningBuffer β] [HoldsRecords β]

theorem setPoint_records {l : PointLayout} (hl : Solid l) {rs : List Bytes} (h : AllLen l.size rs) {r : Bytes}
    (hr : r.length = l.size) {i : Nat} (hi : i < rs.length) :
    BorrowedMutBuffer.setPoint (HoldsRecords.ofRecords l rs : β) i r = .ok (HoldsRecords.ofRecords l (rs.set i r)) := by
  have := HoldsRecords.step_eq (β := β) hl h (.setPoint i r) hr
  simp only [Op.stepRecords, Op.onRecords] at this
  rw [if_pos (show Op.allowed l rs.length (.setPoint i r) from hi)] at this
  exact this

theorem setPoint_panic {l : PointLayout} (hl : Solid l) {rs : List Bytes} (h : AllLen l.size rs) {r : Bytes}
    (hr : r.length = l.size) {i : Nat} (hi : rs.length ≤ i) :
    BorrowedMutBuffer.setPoint (HoldsRecords.ofRecords l rs : β) i r = .error .panic := by
  have := HoldsRecords.step_eq (β := β) hl h (.setPoint i r) hr
  simp only [Op.stepRecords, Op.onRecords] at this
  rw [if_neg (show ¬ Op.allowed l rs.length (.setPoint i r) from Nat.not_lt.2 hi)] at this
  exact this

omit [HoldsRecords β] in
theorem readLoop_end (d : List Char) (ts : List PointDataType) (count index : Nat) (point : UntypedPoint) (b : β) :
    RawAsciiReader.readLoop d ts count index point [] b = .ok ([], b) := by
  cases count <;> rfl

omit [HoldsRecords β] in
theorem readLoop_line {d text line rest : List Char} {ts : List PointDataType} {count index : Nat}
    {point : UntypedPoint} {b : β} (h : nextLine text = some (line, rest)) :
    RawAsciiReader.readLoop d ts (count + 1) index point text b =
      (parsePoint point line d ts).bind fun point =>
        (BorrowedMutBuffer.setPoint b index point.buffer).bind fun b =>
          RawAsciiReader.readLoop d ts count (index + 1) point rest b := by
  rw [RawAsciiReader.readLoop, h]
  rfl

theorem readLoop_ok {l : PointLayout} (hl : Solid l) (d : List Char) (ts : List PointDataType) :
    ∀ (count index : Nat) (buffer : Bytes) (text : List Char) (ls : List (List Char)) (rs : List Bytes),
      Lines text ls → AllLen l.size rs → index + min count ls.length ≤ rs.length → buffer.length = l.size →
      Blank l (ts.map columnOf) buffer → (∀ line ∈ ls.take count, Good (ts.map columnOf) (split line d)) →
      ∃ text' news, RawAsciiReader.readLoop d ts count index ⟨l, buffer⟩ text (HoldsRecords.ofRecords l rs : β) =
          .ok (text', HoldsRecords.ofRecords l (overwrite rs index news)) ∧ Lines text' (ls.drop count) ∧
        List.Forall₂ (fun line r => LineRecord l ts (split line d) r) (ls.take count) news := by
  intro count
  induction count with
  | zero =>
    intro index buffer text ls rs ht _ _ _ _ _
    refine ⟨text, [], ?_, ht, .nil⟩
    rw [overwrite_nil]
    rfl
  | succ count ih =>
    intro index buffer text ls rs ht hrs hi hb hblank hg
    cases ls with
    | nil =>
      cases ht
      refine ⟨[], [], ?_, by simpa using Lines.none, by simp⟩
      rw [overwrite_nil, readLoop_end]
    | cons line ls =>
      obtain ⟨rest, hnext, hrest⟩ := nextLine_some ht
      have hi' : index < rs.length := by simp at hi; omega
      obtain ⟨out, h1, h2⟩ := parsePoint_ok hl hb hblank (hg line (by simp))
      have hset := setPoint_records (β := β) hl hrs h2.1 hi'
      obtain ⟨text', news, h3, h4, h5⟩ := ih (index + 1) out rest ls (rs.set index out) hrest
        (fun r hr => by
          rcases List.mem_or_eq_of_mem_set hr with hr | rfl
          · exact hrs r hr
          · exact h2.1)
        (by simp at hi ⊢; omega) h2.1 h2.2.2 (fun x hx => hg x (by simp [hx]))
      refine ⟨text', out :: news, ?_, by simpa using h4, by simpa using ⟨h2, h5⟩⟩
      rw [readLoop_line hnext, h1]
      simp only [Except.bind]
      rw [hset]
      simp only
      rw [h3, overwrite_cons _ _ _ hi']

theorem readLoop_err {l : PointLayout} (hl : Solid l) (d : List Char) (ts : List PointDataType) :
    ∀ (count index : Nat) (buffer : Bytes) (text : List Char) (ls : List (List Char)) (rs : List Bytes),
      Lines text ls → AllLen l.size rs → index + min count ls.length ≤ rs.length → buffer.length = l.size →
      Blank l (ts.map columnOf) buffer → (∃ line ∈ ls.take count, ¬ Good (ts.map columnOf) (split line d)) →
      RawAsciiReader.readLoop d ts count index ⟨l, buffer⟩ text (HoldsRecords.ofRecords l rs : β) = .error .err := by
  intro count
  induction count with
  | zero =>
    intro index buffer text ls rs _ _ _ _ _ hg
    obtain ⟨line, h, _⟩ := hg
    simp at h
  | succ count ih =>
    intro index buffer text ls rs ht hrs hi hb hblank hg
    cases ls with
    | nil => obtain ⟨line, h, _⟩ := hg; simp at h
    | cons line ls =>
      obtain ⟨rest, hnext, hrest⟩ := nextLine_some ht
      have hi' : index < rs.length := by simp at hi; omega
      rw [readLoop_line hnext]
      by_cases hgood : Good (ts.map columnOf) (split line d)
      · obtain ⟨out, h1, h2⟩ := parsePoint_ok hl hb hblank hgood
        have hset := setPoint_records (β := β) hl hrs h2.1 hi'
        rw [h1]
        simp only [Except.bind]
        rw [hset]
        simp only
        refine ih (index + 1) out rest ls (rs.set index out) hrest
          (fun r hr => by
            rcases List.mem_or_eq_of_mem_set hr with hr | rfl
            · exact hrs r hr
            · exact h2.1)
          (by simp at hi ⊢; omega) h2.1 h2.2.2 ?_
        obtain ⟨x, hx, hbad⟩ := hg
        rcases List.mem_cons.1 (by simpa using hx) with rfl | hx
        · exact absurd hgood hbad
        · exact ⟨x, hx, hbad⟩
      · unfold parsePoint
        rw [parseColumns_err hl ts _ buffer hb hgood]
        rfl

/-- The buffer is too short for the lines. -/
theorem readLoop_panic {l : PointLayout} (hl : Solid l) (d : List Char) (ts : List PointDataType) :
    ∀ (count index : Nat) (buffer : Bytes) (text : List Char) (ls : List (List Char)) (rs : List Bytes),
      Lines text ls → AllLen l.size rs → rs.length < index + min count ls.length → index ≤ rs.length →
      buffer.length = l.size →
      Blank l (ts.map columnOf) buffer → (∀ line ∈ ls.take count, Good (ts.map columnOf) (split line d)) →
      RawAsciiReader.readLoop d ts count index ⟨l, buffer⟩ text (HoldsRecords.ofRecords l rs : β) = .error .panic := by
  intro count
  induction count with
  | zero => intro index buffer text ls rs _ _ hi hle _ _ _; simp at hi; omega
  | succ count ih =>
    intro index buffer text ls rs ht hrs hi hle hb hblank hg
    cases ls with
    | nil => simp at hi; omega
    | cons line ls =>
      obtain ⟨rest, hnext, hrest⟩ := nextLine_some ht
      rw [readLoop_line hnext]
      obtain ⟨out, h1, h2⟩ := parsePoint_ok hl hb hblank (hg line (by simp))
      rw [h1]
      simp only [Except.bind]
      by_cases hi' : index < rs.length
      · rw [setPoint_records (β := β) hl hrs h2.1 hi']
        simp only
        exact ih (index + 1) out rest ls (rs.set index out) hrest
          (fun r hr => by
            rcases List.mem_or_eq_of_mem_set hr with hr | rfl
            · exact hrs r hr
            · exact h2.1)
          (by simp at hi ⊢; omega) (by simp; omega) h2.1 h2.2.2 (fun x hx => hg x (by simp [hx]))
      · rw [setPoint_panic (β := β) hl hrs h2.1 (by omega)]

end

/-! ## The specification -/

theorem good_iff {format : List Char} {ts : List PointDataType}
    (h : format.map meaning = ts.map fun t => some (columnOf t)) (cols : List (List Char)) :
    Good (ts.map columnOf) cols ↔ GoodLine format cols := by
  have hlen : format.length = ts.length := by simpa using congrArg List.length h
  unfold Good GoodLine
  rw [List.length_map, hlen]
  apply and_congr_right
  intro _
  have hd := describes_eq h
  constructor
  · intro hg i c s h1 h2
    obtain ⟨n, hn⟩ := hg i c s (by
      rw [hd] at h1
      rw [List.getElem?_map]
      cases ht : ts[i]? with
      | none => rw [ht] at h1; cases h1
      | some t => rw [ht] at h1; exact congrArg some h1) h2
    exact ⟨n, valueOf_reads hn⟩
  · intro hg i c s h1 h2
    rw [List.getElem?_map] at h1
    cases ht : ts[i]? with
    | none => rw [ht] at h1; cases h1
    | some t =>
      rw [ht] at h1
      have hc : columnOf t = some c := Option.some.inj h1
      obtain ⟨n, hn⟩ := hg i c s (by rw [hd, ht]; exact hc) h2
      exact valueOf_complete ⟨t, hc⟩ hn

theorem window_window {b : Bytes} {o n k j : Nat} (h : k + j ≤ n) :
    window (window b o n) k j = window b (o + k) j := by
  unfold window
  rw [List.drop_take, List.take_take, List.drop_drop]
  congr 1
  omega

theorem pointOfLine {format : List Char} {ts : List PointDataType}
    (h : format.map meaning = ts.map fun t => some (columnOf t)) {l : PointLayout} (hl : Solid l)
    {cols : List (List Char)} {r : Bytes} (hr : LineRecord l ts cols r) :
    PointOfLine format cols l (pointOf l r) := by
  have hd := describes_eq h
  obtain ⟨hlen, hfill, hblank⟩ := hr
  have hentry : ∀ i c s, describes format i = some c → cols[i]? = some s →
      ((ts.map columnOf).zip cols)[i]? = some (some c, s) := by
    intro i c s h1 h2
    rw [hd] at h1
    cases ht : ts[i]? with
    | none => rw [ht] at h1; cases h1
    | some t =>
      rw [ht] at h1
      have hc : columnOf t = some c := h1
      rw [List.getElem?_zip_eq_some]
      exact ⟨by rw [List.getElem?_map, ht]; exact congrArg some hc, h2⟩
  have hcol : ∀ i c, describes format i = some c → IsColumn c := by
    intro i c h1
    rw [hd] at h1
    cases ht : ts[i]? with
    | none => rw [ht] at h1; cases h1
    | some t => rw [ht] at h1; exact ⟨t, h1⟩
  refine ⟨?_, ?_, ?_, ?_⟩
  · simp [pointOf, Function.comp_def]
  · intro d v hv
    rw [pointOf_get] at hv
    cases hf : l.attributes.find? fun m => m.definition = d with
    | none => rw [hf] at hv; cases hv
    | some m =>
      rw [hf] at hv
      obtain ⟨hm, he⟩ := find_def_some hf
      have := hl.inside m hm
      rw [← Option.some.inj hv, length_window (by omega), ← he]
      rfl
  · intro i c s v h1 h2 hv hlast
    rw [pointOf_get] at hv
    cases hf : l.attributes.find? fun m => m.definition = c.attr with
    | none => rw [hf] at hv; cases hv
    | some m =>
      rw [hf] at hv
      obtain ⟨hm, he⟩ := find_def_some hf
      obtain ⟨n, h3, h4⟩ := hfill i c s m (hentry i c s h1 h2) hm he (by
        intro j c' s' hj hj'
        refine hlast j c' hj ?_
        rw [List.getElem?_zip_eq_some, List.getElem?_map] at hj'
        rw [hd]
        cases ht : ts[j]? with
        | none => rw [ht] at hj'; simp at hj'
        | some t => rw [ht] at hj'; exact Option.some.inj hj'.1)
      refine ⟨n, valueOf_reads h3, ?_⟩
      rw [← h4, ← Option.some.inj hv]
      unfold Column.part
      have := (hcol i c h1).inside
      have h5 : m.size = c.attr.size := by rw [← he]; rfl
      exact window_window (by omega)
  · intro d v k hv hk hno
    rw [pointOf_get] at hv
    cases hf : l.attributes.find? fun m => m.definition = d with
    | none => rw [hf] at hv; cases hv
    | some m =>
      rw [hf] at hv
      obtain ⟨hm, he⟩ := find_def_some hf
      have h5 : m.size = d.size := by rw [← he]; rfl
      have := hblank m hm k (by omega) (by
        intro c hc hca
        obtain ⟨t, ht, htc⟩ := List.mem_map.1 hc
        obtain ⟨i, hi⟩ := List.mem_iff_getElem?.1 ht
        exact hno i c (by rw [hd, hi]; exact htc) (by rw [hca, he]))
      rw [← window_window (o := m.offset) (n := m.size) (show k + 1 ≤ m.size by omega)] at this
      rw [show v = window r m.offset m.size from (Option.some.inj hv).symm]
      generalize window r m.offset m.size = w at this ⊢
      unfold window at this
      have h6 := congrArg (·[0]?) this
      simp only [List.getElem?_take, List.getElem?_drop] at h6
      simpa using h6

end Pasture.Ascii
