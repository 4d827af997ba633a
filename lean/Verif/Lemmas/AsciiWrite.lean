import Verif.Lemmas.AsciiRead
import Verif.Lemmas.LasReader

/-! # Writing points as ASCII lines -/

namespace Pasture.Ascii

open Spec Spec.Ascii Props BorrowedBuffer

/-! ## Columns -/

/-- The text of a number. -/
def numText (precision : Nat) (c : Column) (b : Bytes) : List Char :=
  match readNum c.type b with
  | .int z => if c.flag then (if z = 0 then ['0'] else ['1']) else intText z
  | .double x => trimZeros (fixedText precision x)
  | .single _ => []

/-- The literal whose attribute is written for a literal. -/
def writtenAs : PointDataType → PointDataType
  | .classification => .returnNumber
  | .userData => .returnNumber
  | t => t

/-- The text of a column of a point. -/
def pointText (precision : Nat) (p : Point) (t : PointDataType) : Out (List Char) :=
  match columnOf (writtenAs t) with
  | none => .ok []
  | some c =>
    match p.get c.attr with
    | some v => .ok (numText precision c (c.part v))
    | none => .error .err

theorem storedIn_record {l : PointLayout} (hl : Solid l) {r : Bytes} (hr : r.length = l.size) (d : AttrDef) :
    storedIn ⟨l, r⟩ d = (pointOf l r).get d := by
  rw [pointOf_get]
  unfold storedIn
  simp only
  cases hf : l.attributes.find? fun m => m.definition = d with
  | none => rfl
  | some m =>
    obtain ⟨hm, _⟩ := find_def_some hf
    have := hl.inside m hm
    simp only [Option.map_some]
    rw [if_pos (by omega)]

theorem getAttribute_missing {p : UntypedPoint} {d : AttrDef} (h : storedIn p d = none) (ty : DataType) :
    p.getAttribute d ty = .error .err := by
  unfold UntypedPoint.getAttribute
  rw [C30_get_raw, h]
  rfl

theorem part_self {c : Column} {v : Bytes} (h : c.start = 0) (hv : v.length = c.type.size) : c.part v = v := by
  unfold Column.part window
  rw [h, ← hv]
  simp

theorem widen_unsigned {p : Prim} (hp : p = .u8 ∨ p = .u16) {v : Bytes} (hv : v.length = p.size) :
    intOfBits .u64 (leNat (convertNumber p .u64 v)) = intOfBits p (leNat v) := by
  have h := leNat_lt v
  rw [hv] at h
  have hp' : p.isInt = true := by rcases hp with rfl | rfl <;> rfl
  obtain ⟨h1, h2, _⟩ := intOfBits_spec hp' h
  unfold convertNumber
  rw [readNum_int hp', asNum_int (by rfl)]
  have hw : wrapInt .u64 (intOfBits p (leNat v)) = intOfBits p (leNat v) := by
    obtain ⟨a, b, c⟩ := wrapInt_spec (p := .u64) rfl (intOfBits p (leNat v))
    exact range_unique (p := .u64) rfl ⟨a, b⟩ (by
      rcases hp with rfl | rfl <;> simp only [Prim.lo, Prim.hi] at h1 h2 ⊢ <;> omega) c
  rw [hw]
  have hh := holds_write (p := .u64) (z := intOfBits p (leNat v)) (by
    rcases hp with rfl | rfl <;> simp only [Prim.lo, Prim.hi] at h1 h2 ⊢ <;> omega)
  have := holds_read (p := .u64) rfl hh
  rw [readNum_int rfl] at this
  exact Num.int.inj this

theorem widen_signed {v : Bytes} (hv : v.length = 1) :
    intOfBits .i64 (leNat (convertNumber .i8 .i64 v)) = intOfBits .i8 (leNat v) := by
  have h := leNat_lt v
  rw [hv] at h
  obtain ⟨h1, h2, _⟩ := intOfBits_spec (p := .i8) rfl h
  unfold convertNumber
  rw [readNum_int (by rfl), asNum_int (by rfl)]
  have hw : wrapInt .i64 (intOfBits .i8 (leNat v)) = intOfBits .i8 (leNat v) := by
    obtain ⟨a, b, c⟩ := wrapInt_spec (p := .i64) rfl (intOfBits .i8 (leNat v))
    exact range_unique (p := .i64) rfl ⟨a, b⟩ (by
      simp only [Prim.lo, Prim.hi] at h1 h2 ⊢; omega) c
  rw [hw]
  have hh := holds_write (p := .i64) (z := intOfBits .i8 (leNat v)) (by
    simp only [Prim.lo, Prim.hi] at h1 h2 ⊢; omega)
  have := holds_read (p := .i64) rfl hh
  rw [readNum_int rfl] at this
  exact Num.int.inj this

theorem unsignedText_eq {point : UntypedPoint} {d : AttrDef} {p : Prim} (hp : p = .u8 ∨ p = .u16)
    (hd : d.datatype = (if p = .u8 then DataType.u8 else .u16)) (precision : Nat) :
    unsignedText point d = match storedIn point d with
      | some v => .ok (numText precision ⟨d, 0, p, false⟩ (Column.part ⟨d, 0, p, false⟩ v))
      | none => .error .err := by
  unfold unsignedText
  cases hs : storedIn point d with
  | none => rw [getAttribute_missing hs]; rfl
  | some v =>
    have hv : v.length = p.size := by
      have := storedIn_length hs
      rw [this]
      unfold AttrDef.size
      rw [hd]
      rcases hp with rfl | rfl <;> rfl
    rw [C30_typed_get point d v hs]
    have hc : conversion d.datatype .u64 = some (convertNumber p .u64) := by
      rw [hd]; rcases hp with rfl | rfl <;> rfl
    rw [hc]
    simp only [bind, Except.bind, pure, Except.pure]
    rw [widen_unsigned hp hv]
    have e : Column.part ⟨d, 0, p, false⟩ v = v := part_self (by unfold Column.start; simp) hv
    rw [e]
    unfold numText
    simp only
    rw [readNum_int (by rcases hp with rfl | rfl <;> rfl)]
    simp

theorem colorText_eq {point : UntypedPoint} (k : Nat) (precision : Nat) :
    colorText point k = match storedIn point Las.colorRgb with
      | some v => .ok (numText precision ⟨Las.colorRgb, k, .u16, false⟩ (Column.part ⟨Las.colorRgb, k, .u16, false⟩ v))
      | none => .error .err := by
  unfold colorText
  cases hs : storedIn point Las.colorRgb with
  | none => rw [getAttribute_missing hs]; rfl
  | some v =>
    rw [C30_typed_get point _ v hs]
    rfl

theorem coordinateText_eq {point : UntypedPoint} {axis : P3 F64 → F64} {k : Nat}
    (hk : ∀ v, axis (readVec3F64 v) = Flt.ofBits .f64 (leNat (Converter.component 8 k v))) (precision : Nat) :
    coordinateText precision point axis = match storedIn point Las.position3D with
      | some v => .ok (numText precision ⟨Las.position3D, k, .f64, false⟩
          (Column.part ⟨Las.position3D, k, .f64, false⟩ v))
      | none => .error .err := by
  unfold coordinateText
  cases hs : storedIn point Las.position3D with
  | none => rw [getAttribute_missing hs]; rfl
  | some v =>
    rw [C30_typed_get point _ v hs]
    show Except.ok (trimZeros (fixedText precision (axis (readVec3F64 v)))) = _
    rw [hk]
    rfl

theorem flagText_eq {point : UntypedPoint} {d : AttrDef} (hd : d.datatype = .u8) (precision : Nat) :
    flagText point d = match storedIn point d with
      | some v => .ok (numText precision ⟨d, 0, .u8, true⟩ (Column.part ⟨d, 0, .u8, true⟩ v))
      | none => .error .err := by
  unfold flagText
  cases hs : storedIn point d with
  | none => rw [getAttribute_missing hs]; rfl
  | some v =>
    have hv : v.length = 1 := by
      have := storedIn_length hs
      rw [this]
      unfold AttrDef.size
      rw [hd]
      rfl
    rw [C30_typed_get point d v hs, hd]
    have hc : conversion .u8 .u8 = some id := by unfold conversion; rw [if_pos rfl]
    rw [hc]
    have e : Column.part ⟨d, 0, .u8, true⟩ v = v := part_self (by unfold Column.start; simp) hv
    simp only [bind, Except.bind, pure, Except.pure, id]
    rw [e]
    unfold numText
    simp only
    rw [readNum_int (by rfl)]
    simp only [if_true]
    have h := leNat_lt v
    rw [hv] at h
    obtain ⟨h1, h2, h3⟩ := intOfBits_spec (p := .u8) rfl h
    have hz : intOfBits .u8 (leNat v) = leNat v := by
      simp only [Prim.lo, Prim.hi, Prim.size] at h1 h2 h3
      omega
    rw [hz]
    by_cases h0 : leNat v = 0
    · simp [h0]
    · rw [if_pos (by omega), if_neg (by omega)]

theorem columnText_stored {point : UntypedPoint} (precision : Nat) (t : PointDataType) :
    columnText precision point t = match columnOf (writtenAs t) with
      | none => .ok []
      | some c =>
        match storedIn point c.attr with
        | some v => .ok (numText precision c (c.part v))
        | none => .error .err := by
  cases t with
  | skip => rfl
  | coordinateX => exact coordinateText_eq (k := 0) (fun _ => rfl) precision
  | coordinateY => exact coordinateText_eq (k := 1) (fun _ => rfl) precision
  | coordinateZ => exact coordinateText_eq (k := 2) (fun _ => rfl) precision
  | intensity => exact unsignedText_eq (p := .u16) (Or.inr rfl) rfl precision
  | returnNumber => exact unsignedText_eq (p := .u8) (Or.inl rfl) rfl precision
  | numberOfReturns => exact unsignedText_eq (p := .u8) (Or.inl rfl) rfl precision
  | classification => exact unsignedText_eq (p := .u8) (Or.inl rfl) rfl precision
  | userData => exact unsignedText_eq (p := .u8) (Or.inl rfl) rfl precision
  | colorR => exact colorText_eq _ precision
  | colorG => exact colorText_eq _ precision
  | colorB => exact colorText_eq _ precision
  | gpsTime =>
    show (point.getAttribute Las.gpsTime .f64).bind _ = _
    simp only [writtenAs, columnOf]
    cases hs : storedIn point Las.gpsTime with
    | none => rw [getAttribute_missing hs]; rfl
    | some v =>
      have hv : v.length = 8 := storedIn_length hs
      have e : Column.part ⟨Las.gpsTime, 0, .f64, false⟩ v = v := part_self (by unfold Column.start; simp) hv
      rw [C30_typed_get point _ v hs]
      dsimp only
      rw [e]
      rfl
  | pointSourceID => exact unsignedText_eq (p := .u16) (Or.inr rfl) rfl precision
  | edgeOfFlightLine => exact flagText_eq rfl precision
  | scanDirectionFlag => exact flagText_eq rfl precision
  | scanAngleRank =>
    show (point.getAttribute Las.scanAngleRank .i64).bind _ = _
    simp only [writtenAs, columnOf]
    cases hs : storedIn point Las.scanAngleRank with
    | none => rw [getAttribute_missing hs]; rfl
    | some v =>
      have hv : v.length = 1 := storedIn_length hs
      have e : Column.part ⟨Las.scanAngleRank, 0, .i8, false⟩ v = v := part_self (by unfold Column.start; simp) hv
      rw [C30_typed_get point _ v hs]
      dsimp only
      rw [e]
      show Except.ok (intText (intOfBits .i64 (leNat (convertNumber .i8 .i64 v)))) = _
      rw [widen_signed hv]
      rfl
  | nir => exact unsignedText_eq (p := .u16) (Or.inr rfl) rfl precision

theorem columnText_eq {l : PointLayout} (hl : Solid l) {r : Bytes} (hr : r.length = l.size) (precision : Nat)
    (t : PointDataType) : columnText precision ⟨l, r⟩ t = pointText precision (pointOf l r) t := by
  rw [columnText_stored]
  unfold pointText
  cases columnOf (writtenAs t) with
  | none => rfl
  | some c => simp only [storedIn_record hl hr]

/-! ## Lines -/

/-- The line of a point, without its end. -/
def pointLine (w : RawAsciiWriter) (p : Point) : Out (List Char) :=
  (w.parseLayout.mapM (pointText w.precision p)).map fun cols => w.delimiter.intercalate cols

theorem intercalate_cons₂ (d a b : List Char) (cols : List (List Char)) :
    d.intercalate (a :: b :: cols) = a ++ d ++ d.intercalate (b :: cols) := by
  simp [List.intercalate]

theorem intercalate_one (d a : List Char) : d.intercalate [a] = a := by simp [List.intercalate]

theorem columns_loop (d : List Char) (g : PointDataType → Out (List Char)) (total : Nat) :
    ∀ (ts : List PointDataType) (k : Nat) (text : List Char), total = k + ts.length →
      forLoop (ts.zipIdx k) text (fun text x => do
        let s ← g x.1
        pure (text ++ s ++ if x.2 ≠ total - 1 then d else [])) =
      (ts.mapM g).map fun cols => text ++ d.intercalate cols := by
  intro ts
  induction ts with
  | nil =>
    intro k text _
    simp [Except.map, pure, Except.pure, List.intercalate]
  | cons t ts ih =>
    intro k text hk
    rw [List.zipIdx_cons, forLoop_cons, List.mapM_cons]
    cases hg : g t with
    | error e => rfl
    | ok s =>
      simp only [bind, Except.bind, pure, Except.pure]
      have := ih (k + 1) (text ++ s ++ if k ≠ total - 1 then d else []) (by simp at hk; omega)
      simp only [bind, Except.bind, pure, Except.pure] at this
      rw [this]
      cases ts with
      | nil =>
        have : k = total - 1 := by simp at hk; omega
        simp [Except.map, this, pure, Except.pure, List.intercalate]
      | cons t' ts =>
        rw [if_pos (by simp at hk; omega)]
        rw [List.mapM_cons]
        cases hg' : g t' with
        | error e => rfl
        | ok s' =>
          simp only [bind, Except.bind, pure, Except.pure]
          cases ts.mapM g with
          | error e => rfl
          | ok cols =>
            simp only [Except.map]
            rw [intercalate_cons₂]
            simp

theorem writePoint_eq {l : PointLayout} (hl : Solid l) {r : Bytes} (hr : r.length = l.size) (w : RawAsciiWriter)
    (text : List Char) :
    w.writePoint (UntypedPoint.newSlice l r) text =
      (pointLine w (pointOf l r)).map fun s => text ++ (s ++ ['\n']) := by
  have hcol : columnText w.precision (UntypedPoint.newSlice l r) = pointText w.precision (pointOf l r) :=
    funext (columnText_eq hl hr w.precision)
  unfold RawAsciiWriter.writePoint pointLine
  rw [hcol]
  have := columns_loop w.delimiter (pointText w.precision (pointOf l r)) w.parseLayout.length w.parseLayout 0 text
    (by simp)
  show (forLoop w.parseLayout.zipIdx text _).bind _ = _
  rw [show w.parseLayout.zipIdx = w.parseLayout.zipIdx 0 from rfl]
  refine Eq.trans (congrArg (fun x => Except.bind x fun text => (pure (text ++ ['\n']) : Out (List Char))) this) ?_
  cases w.parseLayout.mapM (pointText w.precision (pointOf l r)) with
  | error e => rfl
  | ok cols => simp [Except.map, Except.bind, pure, Except.pure]

/-! ## All points -/

/-- A loop that adds the results of `g`, or fails like `g`. -/
theorem forLoop_collect {σ γ : Type} {n : Nat} {f : σ → Nat → Out σ} {g : Nat → Out (List γ)} {G : Nat → Out (List γ)}
    (h0 : G 0 = .ok []) (hs : ∀ k < n, G (k + 1) = (G k).bind fun a => (g k).map fun b => a ++ b)
    {Q : List γ → σ → Prop} {s : σ} (hq : Q [] s)
    (step : ∀ k < n, ∀ ls st, Q ls st →
      (∃ new st', g k = .ok new ∧ f st k = .ok st' ∧ Q (ls ++ new) st') ∨ ∃ e, g k = .error e ∧ f st k = .error e) :
    ∀ k ≤ n, (∃ ls st, G k = .ok ls ∧ forLoop (List.range k) s f = .ok st ∧ Q ls st) ∨
      ∃ e, G k = .error e ∧ forLoop (List.range k) s f = .error e := by
  intro k
  induction k with
  | zero => intro _; exact Or.inl ⟨[], s, h0, rfl, hq⟩
  | succ k ih =>
    intro hk
    rw [hs k (by omega), List.range_succ, forLoop_append]
    rcases ih (by omega) with ⟨ls, st, h1, h2, h3⟩ | ⟨e, h1, h2⟩
    · rw [h1, h2]
      rcases step k (by omega) ls st h3 with ⟨new, st', h4, h5, h6⟩ | ⟨e, h4, h5⟩
      · refine Or.inl ⟨ls ++ new, st', ?_, ?_, h6⟩
        · simp only [Except.bind, h4, Except.map]
        · simp only [Except.bind, forLoop_cons, h5, forLoop_nil]
      · refine Or.inr ⟨e, ?_, ?_⟩
        · simp only [Except.bind, h4, Except.map]
        · simp only [Except.bind, forLoop_cons, h5]
    · rw [h1, h2]
      exact Or.inr ⟨e, rfl, rfl⟩

theorem mapM_append_out {α γ : Type} (f : α → Out γ) (xs ys : List α) :
    (xs ++ ys).mapM f = (xs.mapM f).bind fun a => (ys.mapM f).map fun b => a ++ b := by
  rw [List.mapM_append]
  cases xs.mapM f with
  | error e => rfl
  | ok a => cases ys.mapM f <;> rfl

theorem sliceGet_blocks_rest {sz : Nat} {rs : List Bytes} (h : AllLen sz rs) {k : Nat} {r : Bytes}
    (hr : rs[k]? = some r) (rest : Bytes) : sliceGet (rs.flatten ++ rest) (k * sz) (k * sz + sz) = .ok r := by
  have hk := (List.getElem?_eq_some_iff.1 hr).1
  have hle : k * sz + sz ≤ rs.flatten.length := by
    rw [h.flatten_length, ← Nat.succ_mul]
    exact Nat.mul_le_mul_right _ hk
  have h1 := sliceGet_blocks h (a := k) (b := k + 1) (by omega) hk
  rw [Nat.succ_mul, sliceGet_ok hle] at h1
  rw [sliceGet_ok (by rw [List.length_append]; omega)]
  have e : window (rs.flatten ++ rest) (k * sz) sz = window rs.flatten (k * sz) sz := by
    unfold window
    rw [List.drop_append_of_le_length (by omega), List.take_append_of_le_length (by rw [List.length_drop]; omega)]
  rw [e, h1]
  congr 1
  rw [show k + 1 - k = 1 by omega, List.drop_eq_getElem_cons hk]
  simp [(List.getElem?_eq_some_iff.1 hr).2]

/-- The points of one chunk. -/
theorem points_loop {l : PointLayout} (hl : Solid l) (w : RawAsciiWriter) {rs : List Bytes} (h : AllLen l.size rs)
    (rest : Bytes) (text : List Char) :
    forLoop (List.range rs.length) text (fun text i => do
      let record ← sliceGet (rs.flatten ++ rest) (i * l.size) (i * l.size + l.size)
      w.writePoint (UntypedPoint.newSlice l record) text) =
    ((rs.map (pointOf l)).mapM (pointLine w)).map fun ls => text ++ (ls.map (· ++ ['\n'])).flatten := by
  have key := forLoop_collect (n := rs.length)
    (f := fun text i => do
      let record ← sliceGet (rs.flatten ++ rest) (i * l.size) (i * l.size + l.size)
      w.writePoint (UntypedPoint.newSlice l record) text)
    (g := fun k => (((rs.map (pointOf l)).drop k).take 1).mapM (pointLine w))
    (G := fun k => ((rs.map (pointOf l)).take k).mapM (pointLine w)) (s := text)
    (Q := fun ls st => st = text ++ (ls.map (· ++ ['\n'])).flatten) rfl
    (by
      intro k hk
      rw [← mapM_append_out, ← List.take_add])
    (by simp)
    (by
      intro k hk ls st hst
      have hrk : rs[k]? = some rs[k] := List.getElem?_eq_getElem hk
      have hrl := h.getElem hrk
      have hone : ((rs.map (pointOf l)).drop k).take 1 = [pointOf l rs[k]] := by
        rw [List.drop_eq_getElem_cons (by simpa using hk)]
        simp
      have hslice : sliceGet (rs.flatten ++ rest) (k * l.size) (k * l.size + l.size) = .ok rs[k] := by
        exact sliceGet_blocks_rest h hrk rest
      simp only [hone, hslice, bind, Except.bind, List.mapM_cons, List.mapM_nil, pure, Except.pure]
      rw [writePoint_eq hl hrl]
      cases pointLine w (pointOf l rs[k]) with
      | error e => exact Or.inr ⟨e, rfl, rfl⟩
      | ok s =>
        refine Or.inl ⟨[s], _, rfl, rfl, ?_⟩
        rw [hst]; simp)
    rs.length (Nat.le_refl _)
  rw [List.take_of_length_le (by simp)] at key
  rcases key with ⟨ls, st, h1, h2, h3⟩ | ⟨e, h1, h2⟩
  · rw [h1, h2, h3]; rfl
  · rw [h1, h2]; rfl

open RawAsciiWriter

theorem chunkSize_pos : 0 < chunkSize := by unfold chunkSize; omega

/-- The points of chunk `k`. -/
def chunkAt {α : Type} (xs : List α) (k : Nat) : List α := (xs.drop (k * chunkSize)).take chunkSize

theorem writeChunk_eq {β : Type} [BorrowedBuffer β] {b : β} {l : PointLayout} (hl : Solid l) {ps : List Point}
    (hb : ShowsPoints b l ps) (w : RawAsciiWriter) {text : List Char} {chunk : Bytes}
    (hc : chunk.length = chunkSize * l.size) {k : Nat} (hk : k * chunkSize ≤ ps.length) :
    ∃ chunk', chunk'.length = chunkSize * l.size ∧
      w.writeChunk b (text, chunk) k =
        ((chunkAt ps k).mapM (pointLine w)).map fun ls => (text ++ (ls.map (· ++ ['\n'])).flatten, chunk') := by
  have hlen : len b = ps.length := hb.len_eq
  have hn : (chunkAt ps k).length = min chunkSize (ps.length - k * chunkSize) := by unfold chunkAt; simp
  generalize hN : (chunkAt ps k).length = N at hn
  have hNle : N * l.size ≤ chunk.length := by
    rw [hc]; exact Nat.mul_le_mul_right _ (by omega)
  obtain ⟨r, h1, h2, h3⟩ := hb.getPointRange_ok (k * chunkSize) (k * chunkSize + N) (chunk.take (N * l.size))
    (by omega) (by omega) (by rw [List.length_take]; rw [show k * chunkSize + N - k * chunkSize = N by omega]; omega)
  rw [show k * chunkSize + N - k * chunkSize = N by omega] at h2 h3
  have hpart : (ps.drop (k * chunkSize)).take N = chunkAt ps k := by
    unfold chunkAt
    rw [hn, List.take_eq_take_iff]
    simp
  rw [hpart] at h3
  have hput : put chunk 0 r = (recordsOf l.size N r).flatten ++ chunk.drop r.length := by
    rw [flatten_recordsOf h2]
    unfold put
    simp
  have hrl : (recordsOf l.size N r).length = N := by
    have := congrArg List.length h3
    rw [List.length_map, hN] at this
    exact this
  refine ⟨put chunk 0 r, ?_, ?_⟩
  · rw [hput, flatten_recordsOf h2, List.length_append, List.length_drop]
    omega
  · have hloop := points_loop hl w (recordsOf_allLen h2) (chunk.drop r.length) text
    rw [h3, hrl, ← hput] at hloop
    unfold writeChunk
    rw [hlen, hb.layout_eq, ← hn]
    show (sliceGet chunk 0 (N * l.size)).bind _ = _
    rw [sliceGet_prefix hNle]
    show (getPointRange b ⟨k * chunkSize, k * chunkSize + N⟩ (chunk.take (N * l.size))).bind _ = _
    rw [h1]
    show (forLoop (List.range N) text _).bind _ = _
    refine Eq.trans (congrArg (fun x => Except.bind x fun text => (pure (text, put chunk 0 r) : Out _)) hloop) ?_
    cases (chunkAt ps k).mapM (pointLine w) <;> rfl

/-- What `write` does: one line per point, or the error of a line. -/
theorem write_eq {β : Type} [BorrowedBuffer β] {b : β} {l : PointLayout} (hl : Solid l) {ps : List Point}
    (hb : ShowsPoints b l ps) (w : RawAsciiWriter) :
    w.write b = (ps.mapM (pointLine w)).map fun ls => { w with text := w.text ++ (ls.map (· ++ ['\n'])).flatten } := by
  have hlen : len b = ps.length := hb.len_eq
  have hpos := chunkSize_pos
  have key := forLoop_collect (n := (ps.length + (chunkSize - 1)) / chunkSize) (f := w.writeChunk b)
    (g := fun k => (chunkAt ps k).mapM (pointLine w))
    (G := fun k => (ps.take (k * chunkSize)).mapM (pointLine w)) (s := (w.text, zeros (chunkSize * l.size)))
    (Q := fun ls st => st.1 = w.text ++ (ls.map (· ++ ['\n'])).flatten ∧ st.2.length = chunkSize * l.size)
    (by simp [pure, Except.pure])
    (by
      intro k _
      rw [← mapM_append_out, Nat.succ_mul, List.take_add]
      rfl)
    ⟨by simp, by simp [zeros]⟩
    (by
      intro k hk ls st ⟨h1, h2⟩
      have hkl : k * chunkSize < ps.length := (Pasture.chunk_lt hpos).1 (by rw [Nat.add_sub_assoc hpos]; exact hk)
      obtain ⟨chunk', h3, h4⟩ := writeChunk_eq hl hb w (text := st.1) h2 (Nat.le_of_lt hkl)
      cases hm : (chunkAt ps k).mapM (pointLine w) with
      | error e => exact Or.inr ⟨e, rfl, by rw [h4, hm]; rfl⟩
      | ok new =>
        refine Or.inl ⟨new, _, rfl, by rw [h4, hm]; rfl, ?_, h3⟩
        rw [h1]; simp)
    _ (Nat.le_refl _)
  have hall : ps.take ((ps.length + (chunkSize - 1)) / chunkSize * chunkSize) = ps := by
    apply List.take_of_length_le
    have := Pasture.chunk_last (n := ps.length) hpos
    rw [← Nat.add_sub_assoc hpos]
    exact this
  rw [hall] at key
  unfold RawAsciiWriter.write
  rw [hlen, hb.layout_eq]
  show (forLoop _ _ _).bind _ = _
  rcases key with ⟨ls, st, h1, h2, h3, _⟩ | ⟨e, h1, h2⟩
  · rw [h1, h2]
    simp only [Except.bind, Except.map, pure, Except.pure, h3]
  · rw [h1, h2]; rfl

end Pasture.Ascii
