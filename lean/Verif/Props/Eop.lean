import Verif.Lemmas.Eop
import Verif.RealInst

/-! # Earth orientation parameters: C10-C15, C87 -/

set_option linter.unusedSimpArgs false

namespace NavFuse.Props
open Spec Rotations

section anyScalar
variable {α : Type}

/-- C10: a well-formed file with any number of data lines becomes the table of its rows, whatever was loaded before. -/
theorem C10_parse (stod : List Char → Option α) (hempty : stod [] = none) (header : List Char) (hh : '\n' ∉ header)
    (rows : List (List (List Char) × EopRow α)) (hrows : ∀ p ∈ rows, DataLine stod p.1 p.2) (finalNewline : Bool) (obj : Obj α) :
    ∃ t, getEops stod ⟨true, some (textFile (header :: rows.map fun p => joinWith ',' p.1) finalNewline)⟩ obj = (some true, ⟨true, t⟩) ∧
      t.mjd = rows.map (·.2.mjd) ∧ t.xPole = rows.map (·.2.xPole) ∧ t.yPole = rows.map (·.2.yPole) ∧
      t.ut1Utc = rows.map (·.2.ut1Utc) ∧ t.lod = rows.map (·.2.lod) ∧ t.taiUtc = rows.map (·.2.taiUtc) := by
  have hclean : ∀ f ∈ header :: rows.map (fun p => joinWith ',' p.1), '\n' ∉ f := by
    intro f hf
    rcases List.mem_cons.1 hf with rfl | hf
    · exact hh
    · obtain ⟨p, hp, rfl⟩ := List.mem_map.1 hf
      exact clean_join _ (fun g hg => ((hrows p hp).clean g hg).2)
  have hlines : (getlines '\n' (textFile (header :: rows.map fun p => joinWith ',' p.1) finalNewline)).tail
      = rows.map fun p => joinWith ',' p.1 := by
    cases finalNewline with
    | true => simp only [textFile, if_true]; rw [getlines_end '\n' _ hclean (by simp)]; rfl
    | false =>
      have e : textFile (header :: rows.map fun p => joinWith ',' p.1) false = joinWith '\n' (header :: rows.map fun p => joinWith ',' p.1) := by
        simp [textFile]
      rw [e, getlines_join '\n' _ hclean]
      cases rows with
      | nil => simp; split_ifs <;> rfl
      | cons p ps =>
        rw [if_neg]
        · rfl
        · intro hl
          have hm : ([] : List Char) ∈ (p :: ps).map (fun p => joinWith ',' p.1) := by
            rw [List.map_cons, List.getLast?_cons_cons] at hl
            rw [List.map_cons]
            exact List.mem_of_getLast? hl
          obtain ⟨q, hq, e⟩ := List.mem_map.1 hm
          exact join_ne_nil q.1 (by have := (hrows q hq).cols; omega) e
  refine ⟨Rotations.Eops.pushAll ⟨[], [], [], [], [], []⟩ (rows.map (·.2)), ?_, ?_⟩
  · simp only [getEops, Option.getD_some, hlines, readRows_lines stod hempty rows hrows]
    rfl
  · simp [Rotations.Eops.pushAll, List.map_map, Function.comp_def]

/-- C11: a load that does not report success (invalid path, or an exception) leaves the object as it was; and an exception escapes exactly
when the path is readable and a data line has a numeric column that does not parse. -/
theorem C11_failed_load (stod : List Char → Option α) (file : FileView) (obj : Obj α) :
    ((getEops stod file obj).1 ≠ some true → (getEops stod file obj).2 = obj) ∧
    ((getEops stod file obj).1 = some false ↔ file.readable = false) ∧
    ((getEops stod file obj).1 = none ↔ file.readable = true ∧
      ∃ l ∈ (getlines '\n' (file.readWrite.getD [])).tail, ∃ i f, (getlines ',' l)[i]? = some f ∧ i ∈ [1, 2, 3, 4, 5, 10] ∧ stod f = none) := by
  obtain ⟨rd, rw'⟩ := file
  cases rd with
  | false => simp [getEops]
  | true =>
    rcases readRows_cases stod ⟨[], [], [], [], [], []⟩ (getlines '\n' (rw'.getD [])).tail with ⟨a, b⟩ | ⟨a, t, b⟩
    · simp only [getEops, b]
      refine ⟨by simp, by simp, ?_⟩
      simp only [Bool.not_true, Bool.false_eq_true, if_false, true_and, true_iff]
      exact a
    · simp only [getEops, b]
      refine ⟨by simp, by simp, ?_⟩
      simp only [Bool.not_true, Bool.false_eq_true, if_false, true_and]
      constructor
      · intro h; cases h
      · intro h; exact absurd h a

/-- a numeral reader for examples: a single digit -/
def digit : List Char → Option Int
  | [c] => if c.isDigit then some (c.toNat - 48) else none
  | _ => none

/-- non-vacuity of C10 and C11 -/
example : DataLine digit (["d", "1", "2", "3", "4", "5", "", "", "", "", "7"].map String.toList) ⟨1, 2, 3, 4, 5, 7⟩ :=
  ⟨by decide, by decide, by decide, by decide, by decide, by decide, by decide, by decide⟩
example : (getEops digit ⟨true, some "h\nd,x".toList⟩ Obj.fresh).1 = none := by decide

/-- C12, the part that holds: when the file can also be opened for writing, success means its rows were read: every line after the first
was split at commas, none had an unreadable number in a column used, and each column of the table is the list of that column's numbers, in
file order. -/
theorem C12_rows_read_partial (stod : List Char → Option α) (text : List Char) (obj obj' : Obj α)
    (h : getEops stod ⟨true, some text⟩ obj = (some true, obj')) :
    obj'.eopsSet = true ∧
    (∀ l ∈ (getlines '\n' text).tail, ∀ i ∈ [1, 2, 3, 4, 5, 10], ∀ f, (getlines ',' l)[i]? = some f → (stod f).isSome) ∧
    obj'.eops.mjd = (getlines '\n' text).tail.filterMap (fun l => (getlines ',' l)[1]?.bind stod) ∧
    obj'.eops.xPole = (getlines '\n' text).tail.filterMap (fun l => (getlines ',' l)[2]?.bind stod) ∧
    obj'.eops.yPole = (getlines '\n' text).tail.filterMap (fun l => (getlines ',' l)[3]?.bind stod) ∧
    obj'.eops.ut1Utc = (getlines '\n' text).tail.filterMap (fun l => (getlines ',' l)[4]?.bind stod) ∧
    obj'.eops.lod = (getlines '\n' text).tail.filterMap (fun l => (getlines ',' l)[5]?.bind stod) ∧
    obj'.eops.taiUtc = (getlines '\n' text).tail.filterMap (fun l => (getlines ',' l)[10]?.bind stod) := by
  obtain ⟨h1, hr⟩ := getEops_rows stod text obj obj' h
  refine ⟨h1, ?_, ?_, ?_, ?_, ?_, ?_, ?_⟩
  · intro l hl i hi f hf
    rcases readRows_cases stod ⟨[], [], [], [], [], []⟩ (getlines '\n' text).tail with ⟨-, e⟩ | ⟨a, -⟩
    · rw [e] at hr; cases hr
    · cases hs : stod f with
      | some x => rfl
      | none => exact absurd ⟨l, hl, i, f, hf, hi, hs⟩ a
  · simpa using readRows_col stod (·.mjd) 1 (fun t t' k f h => (pushField_col stod t t' k f h).1) _ _ _ hr
  · simpa using readRows_col stod (·.xPole) 2 (fun t t' k f h => (pushField_col stod t t' k f h).2.1) _ _ _ hr
  · simpa using readRows_col stod (·.yPole) 3 (fun t t' k f h => (pushField_col stod t t' k f h).2.2.1) _ _ _ hr
  · simpa using readRows_col stod (·.ut1Utc) 4 (fun t t' k f h => (pushField_col stod t t' k f h).2.2.2.1) _ _ _ hr
  · simpa using readRows_col stod (·.lod) 5 (fun t t' k f h => (pushField_col stod t t' k f h).2.2.2.2.1) _ _ _ hr
  · simpa using readRows_col stod (·.taiUtc) 10 (fun t t' k f h => (pushField_col stod t t' k f h).2.2.2.2.2) _ _ _ hr

/-- non-vacuity of C12: a file whose second data line is short loads, each column keeping what is there -/
example : (getEops digit ⟨true, some "h\nd,1,2,3,4,5,,,,,7\nd,2,8".toList⟩ Obj.fresh) =
    (some true, ⟨true, ⟨[1, 2], [2, 8], [3], [4], [5], [7]⟩⟩) := rfl

/-- C12 fails for every readable file without write permission: success is reported, no row was read and the table loaded before is lost. -/
theorem C12_read_only_fails (stod : List Char → Option α) (obj : Obj α) :
    getEops stod ⟨true, none⟩ obj = (some true, ⟨true, ⟨[], [], [], [], [], []⟩⟩) := by
  simp [getEops, getlines, readRows]

variable [Add α] [Sub α] [Mul α] [Div α] [Flt α]

theorem lookup_ok (obj : Obj α) (hr : obj.eops.Rect) (mjd : α) : ∃ r, getCurrentEop obj mjd = .ok r := by
  unfold getCurrentEop
  split_ifs
  · exact ⟨_, rfl⟩
  · simp only
    cases hf : obj.eops.mjd.findIdx? (fun m => Flt.eq m (Flt.floor mjd)) with
    | none => exact ⟨_, rfl⟩
    | some i =>
      have hi : i < obj.eops.mjd.length := by
        rw [List.findIdx?_eq_some_iff_getElem] at hf; exact hf.1
      obtain ⟨a1, a2, a3, a4, a5⟩ := hr
      have get : ∀ (v : List α) (k : Nat), v.length = obj.eops.mjd.length → k < obj.eops.mjd.length → ∃ x, colGet v k = .ok x := by
        intro v k hv hk
        exact ⟨v[k], by simp [colGet, List.getElem?_eq_getElem (hv ▸ hk)]⟩
      have hn : (if i = obj.eops.mjd.length - 1 then i else i + 1) < obj.eops.mjd.length := by split_ifs <;> omega
      obtain ⟨x1, e1⟩ := get _ i a1 hi
      obtain ⟨x2, e2⟩ := get _ i a2 hi
      obtain ⟨x3, e3⟩ := get _ i a3 hi
      obtain ⟨x4, e4⟩ := get _ i a4 hi
      obtain ⟨x5, e5⟩ := get _ i a5 hi
      obtain ⟨y1, g1⟩ := get _ _ a1 hn
      obtain ⟨y2, g2⟩ := get _ _ a2 hn
      obtain ⟨y3, g3⟩ := get _ _ a3 hn
      obtain ⟨y4, g4⟩ := get _ _ a4 hn
      simp only [e1, e2, e3, e4, e5, g1, g2, g3, g4, osimp]
      exact ⟨_, rfl⟩

/-- C15, the part that holds: when every line that has an MJD column has all eleven columns, no later lookup reads outside a column. -/
theorem C15_lookup_partial (stod : List Char → Option α) (text : List Char) (obj obj' : Obj α)
    (hl : ∀ l ∈ (getlines '\n' text).tail, (getlines ',' l).length < 2 ∨ 11 ≤ (getlines ',' l).length)
    (h : getEops stod ⟨true, some text⟩ obj = (some true, obj')) (mjd : α) : ∃ r, getCurrentEop obj' mjd = .ok r := by
  have := (getEops_rows stod text obj obj' h).2
  exact lookup_ok obj' (readRows_rect stod _ hl _ _ ⟨rfl, rfl, rfl, rfl, rfl⟩ this) mjd

/-- non-vacuity: a two-line file, and an empty line -/
example : ∀ l ∈ (getlines '\n' "h\nd,1,2,3,4,5,,,,,7\n\n".toList).tail, (getlines ',' l).length < 2 ∨ 11 ≤ (getlines ',' l).length := by
  decide

end anyScalar

/-- C15 fails: a file whose line ends after the MJD column is accepted, and the first lookup of that day reads outside the table.
(`stod` may be any reader that accepts the numeral of the day.) -/
theorem C15_short_row_fails (stod : List Char → Option ℝ) (h5 : stod ['5'] = some 5) (obj : Obj ℝ) :
    ∃ obj', getEops stod ⟨true, some "h\nd,5\n".toList⟩ obj = (some true, obj') ∧ getCurrentEop obj' (5.25 : ℝ) = Out.ub .index := by
  have hg : (getlines '\n' "h\nd,5\n".toList).tail = [['d', ',', '5']] := by decide
  have hg' : getlines ',' ['d', ',', '5'] = [['d'], ['5']] := by decide
  refine ⟨⟨true, ⟨[5], [], [], [], [], []⟩⟩, ?_, ?_⟩
  · simp only [getEops, Option.getD_some, hg, readRows, hg', pushFields, pushField, h5, osimp]
    simp [osimp, h5]
  · have hfl : (⌊(5.25 : ℝ)⌋ : ℝ) = 5 := by
      have : ⌊(5.25 : ℝ)⌋ = 5 := by rw [Int.floor_eq_iff]; norm_num
      rw [this]; norm_num
    have : Flt.eq (5 : ℝ) (Flt.floor (5.25 : ℝ)) = true := by rw [R_eq, R_floor, hfl]
    simp [getCurrentEop, List.findIdx?_cons, this, colGet, osimp]

/-- row `i` of a table -/
def IsRow (t : Eops ℝ) (i : Nat) (r : EopRow ℝ) : Prop :=
  t.mjd[i]? = some r.mjd ∧ t.xPole[i]? = some r.xPole ∧ t.yPole[i]? = some r.yPole ∧ t.ut1Utc[i]? = some r.ut1Utc ∧
    t.lod[i]? = some r.lod ∧ t.taiUtc[i]? = some r.taiUtc

/-- the point at the fraction `s` between `a` and `b` -/
noncomputable def between (s a b : ℝ) : ℝ := (1 - s) * a + s * b

/-- C13: what a lookup does.  It fails when nothing was loaded or the day is not in the table; otherwise it takes the first row of that day
and goes linearly towards the next row of the table, if there is one. -/
theorem C13_lookup (obj : Obj ℝ) (hr : obj.eops.Rect) (mjd : ℝ) :
    (obj.eopsSet = false ∨ (⌊mjd⌋ : ℝ) ∉ obj.eops.mjd → getCurrentEop obj mjd = .ok none) ∧
    (obj.eopsSet = true → ∀ i, obj.eops.mjd[i]? = some (⌊mjd⌋ : ℝ) → (∀ j, j < i → obj.eops.mjd[j]? ≠ some (⌊mjd⌋ : ℝ)) →
      ∃ pre post : EopRow ℝ, IsRow obj.eops i pre ∧ IsRow obj.eops (if i + 1 < obj.eops.mjd.length then i + 1 else i) post ∧
        getCurrentEop obj mjd = .ok (some {
          xPole := between (Int.fract mjd) pre.xPole post.xPole * (Real.pi / 648000)
          yPole := between (Int.fract mjd) pre.yPole post.yPole * (Real.pi / 648000)
          ut1Utc := between (Int.fract mjd) pre.ut1Utc post.ut1Utc
          lod := between (Int.fract mjd) pre.lod post.lod
          taiUtc := pre.taiUtc })) := by
  constructor
  · rintro (h | h)
    · simp [getCurrentEop, h]
    · have : obj.eops.mjd.findIdx? (fun m => Flt.eq m (Flt.floor mjd)) = none := by
        rw [List.findIdx?_eq_none_iff]
        intro x hx
        rw [← Bool.not_eq_true, R_eq, R_floor]
        rintro rfl
        exact h hx
      simp only [getCurrentEop, this]
      split_ifs <;> rfl
  · intro hs i hi hfirst
    have hlt : i < obj.eops.mjd.length := by
      by_contra hge
      rw [List.getElem?_eq_none (by omega)] at hi
      cases hi
    have hfind : obj.eops.mjd.findIdx? (fun m => Flt.eq m (Flt.floor mjd)) = some i := by
      rw [List.findIdx?_eq_some_iff_getElem]
      refine ⟨hlt, ?_, fun j hj => ?_⟩
      · rw [R_eq, R_floor]
        rw [List.getElem?_eq_getElem hlt] at hi
        exact Option.some.inj hi
      · rw [R_eq, R_floor]
        intro e
        exact hfirst j hj (by rw [List.getElem?_eq_getElem (by omega), e])
    obtain ⟨a1, a2, a3, a4, a5⟩ := hr
    have hn : (if i + 1 < obj.eops.mjd.length then i + 1 else i) = (if i = obj.eops.mjd.length - 1 then i else i + 1) := by
      split_ifs <;> omega
    rw [hn]
    have hn' : (if i = obj.eops.mjd.length - 1 then i else i + 1) < obj.eops.mjd.length := by split_ifs <;> omega
    generalize hk : (if i = obj.eops.mjd.length - 1 then i else i + 1) = k at *
    have row : ∀ k, k < obj.eops.mjd.length → ∃ r, IsRow obj.eops k r := by
      intro k hk
      exact ⟨⟨obj.eops.mjd[k], obj.eops.xPole[k], obj.eops.yPole[k], obj.eops.ut1Utc[k], obj.eops.lod[k], obj.eops.taiUtc[k]⟩,
        by simp [IsRow]⟩
    obtain ⟨pre, p0, p1, p2, p3, p4, p5⟩ := row i hlt
    obtain ⟨post, q0, q1, q2, q3, q4, q5⟩ := row k hn'
    refine ⟨pre, post, ⟨p0, p1, p2, p3, p4, p5⟩, ⟨q0, q1, q2, q3, q4, q5⟩, ?_⟩
    simp only [getCurrentEop, hs, hfind, hk, colGet, p1, p2, p3, p4, p5, q1, q2, q3, q4, osimp]
    simp only [Bool.not_true, Bool.false_eq_true, if_false]
    have ha : (arcs : ℝ) = 648000 / Real.pi := by simp only [arcs, rsimp]; norm_num
    have hf : mjd - (Flt.floor mjd : ℝ) = Int.fract mjd := by rw [R_floor]; rfl
    rw [ha, hf]
    simp only [between]
    congr 3
    · rw [div_div_eq_mul_div]; ring
    · rw [div_div_eq_mul_div]; ring
    · ring
    · ring

/-- a two-row table for the examples -/
noncomputable def twoDays (u v : EopRow ℝ) : Obj ℝ :=
  ⟨true, ⟨[u.mjd, v.mjd], [u.xPole, v.xPole], [u.yPole, v.yPole], [u.ut1Utc, v.ut1Utc], [u.lod, v.lod], [u.taiUtc, v.taiUtc]⟩⟩

/-- non-vacuity of C13 and C14 -/
example (u v : EopRow ℝ) (h : u.mjd = 5) : (twoDays u v).eops.Rect ∧ (twoDays u v).eops.mjd[0]? = some ((⌊(5.25 : ℝ)⌋ : ℤ) : ℝ) := by
  have : ⌊(5.25 : ℝ)⌋ = 5 := by rw [Int.floor_eq_iff]; norm_num
  refine ⟨⟨rfl, rfl, rfl, rfl, rfl⟩, ?_⟩
  rw [this]
  simp [twoDays, h]

theorem between_bounds {s a b : ℝ} (h0 : 0 ≤ s) (h1 : s ≤ 1) : min a b ≤ between s a b ∧ between s a b ≤ max a b := by
  have e1 := min_le_left a b
  have e2 := min_le_right a b
  have e3 := le_max_left a b
  have e4 := le_max_right a b
  unfold between
  constructor
  · nlinarith
  · nlinarith

/-- the rows behind a successful lookup, with C13's values -/
theorem lookup_rows (obj : Obj ℝ) (hr : obj.eops.Rect) (mjd : ℝ) (e : EopVal ℝ) (h : getCurrentEop obj mjd = .ok (some e)) :
    ∃ i, ∃ pre post : EopRow ℝ, IsRow obj.eops i pre ∧ IsRow obj.eops (if i + 1 < obj.eops.mjd.length then i + 1 else i) post ∧
      pre.mjd = ⌊mjd⌋ ∧ e = {
        xPole := between (Int.fract mjd) pre.xPole post.xPole * (Real.pi / 648000)
        yPole := between (Int.fract mjd) pre.yPole post.yPole * (Real.pi / 648000)
        ut1Utc := between (Int.fract mjd) pre.ut1Utc post.ut1Utc
        lod := between (Int.fract mjd) pre.lod post.lod
        taiUtc := pre.taiUtc } := by
  obtain ⟨L1, L2⟩ := C13_lookup obj hr mjd
  by_cases hs : obj.eopsSet = true
  swap
  · rw [L1 (Or.inl (by simpa using hs))] at h; cases h
  by_cases hm : (⌊mjd⌋ : ℝ) ∈ obj.eops.mjd
  swap
  · rw [L1 (Or.inr hm)] at h; cases h
  classical
  have hex : ∃ i : ℕ, obj.eops.mjd[i]? = some (⌊mjd⌋ : ℝ) := by
    obtain ⟨i, hi, e⟩ := List.getElem_of_mem hm
    exact ⟨i, by rw [List.getElem?_eq_getElem hi, e]⟩
  obtain ⟨pre, post, r1, r2, hg⟩ := L2 hs (Nat.find hex) (Nat.find_spec hex) (fun j hj => Nat.find_min hex hj)
  rw [hg] at h
  refine ⟨Nat.find hex, pre, post, r1, r2, ?_, (Option.some.inj (Except.ok.inj h)).symm⟩
  have := Nat.find_spec hex
  rw [r1.1] at this
  exact Option.some.inj this

/-- C14: the values returned lie between those of the two rows used (polar motion after conversion to radians), and equal the first one at
midnight. -/
theorem C14_between (obj : Obj ℝ) (hr : obj.eops.Rect) (mjd : ℝ) (e : EopVal ℝ) (h : getCurrentEop obj mjd = .ok (some e)) :
    ∃ i, ∃ pre post : EopRow ℝ, IsRow obj.eops i pre ∧ IsRow obj.eops (if i + 1 < obj.eops.mjd.length then i + 1 else i) post ∧
      pre.mjd = ⌊mjd⌋ ∧
      (min pre.xPole post.xPole ≤ e.xPole * (648000 / Real.pi) ∧ e.xPole * (648000 / Real.pi) ≤ max pre.xPole post.xPole) ∧
      (min pre.yPole post.yPole ≤ e.yPole * (648000 / Real.pi) ∧ e.yPole * (648000 / Real.pi) ≤ max pre.yPole post.yPole) ∧
      (min pre.ut1Utc post.ut1Utc ≤ e.ut1Utc ∧ e.ut1Utc ≤ max pre.ut1Utc post.ut1Utc) ∧
      (min pre.lod post.lod ≤ e.lod ∧ e.lod ≤ max pre.lod post.lod) ∧ e.taiUtc = pre.taiUtc ∧
      (mjd = ⌊mjd⌋ → e.xPole * (648000 / Real.pi) = pre.xPole ∧ e.yPole * (648000 / Real.pi) = pre.yPole ∧ e.ut1Utc = pre.ut1Utc ∧
        e.lod = pre.lod) := by
  obtain ⟨i, pre, post, r1, r2, hd, rfl⟩ := lookup_rows obj hr mjd e h
  have hp : Real.pi ≠ 0 := Real.pi_ne_zero
  have sc : ∀ x : ℝ, x * (Real.pi / 648000) * (648000 / Real.pi) = x := fun x => by field_simp
  have f0 := Int.fract_nonneg mjd
  have f1 := (Int.fract_lt_one mjd).le
  refine ⟨i, pre, post, r1, r2, hd, ?_⟩
  simp only [sc]
  refine ⟨between_bounds f0 f1, between_bounds f0 f1, between_bounds f0 f1, between_bounds f0 f1, trivial, fun hint => ?_⟩
  have hz : Int.fract mjd = 0 := by rw [Int.fract, sub_eq_zero]; exact hint
  simp [hz, between]

/-- C87, the part that holds: UT1-TAI from any lookup is the interpolation of the two rows' values plus the elapsed part of the day times
the leap between the rows, so without a leap second it stays between them. -/
theorem C87_ut1_tai_partial (obj : Obj ℝ) (hr : obj.eops.Rect) (mjd : ℝ) (e : EopVal ℝ) (h : getCurrentEop obj mjd = .ok (some e)) :
    ∃ i, ∃ u v : EopRow ℝ, IsRow obj.eops i u ∧ IsRow obj.eops (if i + 1 < obj.eops.mjd.length then i + 1 else i) v ∧ u.mjd = ⌊mjd⌋ ∧
      e.ut1Utc - e.taiUtc = between (Int.fract mjd) (u.ut1Utc - u.taiUtc) (v.ut1Utc - v.taiUtc) + Int.fract mjd * (v.taiUtc - u.taiUtc) ∧
      (u.taiUtc = v.taiUtc → min (u.ut1Utc - u.taiUtc) (v.ut1Utc - v.taiUtc) ≤ e.ut1Utc - e.taiUtc ∧
        e.ut1Utc - e.taiUtc ≤ max (u.ut1Utc - u.taiUtc) (v.ut1Utc - v.taiUtc)) := by
  obtain ⟨i, pre, post, r1, r2, hd, rfl⟩ := lookup_rows obj hr mjd e h
  have he : ∀ a b s t f : ℝ, between f a b - s = between f (a - s) (b - t) + f * (t - s) := by
    intro a b s t f; simp only [between]; ring
  refine ⟨i, pre, post, r1, r2, hd, he _ _ _ _ _, fun hl => ?_⟩
  have := between_bounds (a := pre.ut1Utc - pre.taiUtc) (b := post.ut1Utc - post.taiUtc) (Int.fract_nonneg mjd) (Int.fract_lt_one mjd).le
  dsimp only
  rw [he pre.ut1Utc post.ut1Utc pre.taiUtc post.taiUtc]
  simpa only [hl, sub_self, mul_zero, add_zero] using this

/-- C87 fails on the day before a leap second: UT1-TAI is the same in both rows, and half a second off at noon in between. -/
theorem C87_leap_second_fails (x y l : ℝ) :
    let u : EopRow ℝ := ⟨57753, x, y, -0.4, l, 36⟩
    let v : EopRow ℝ := ⟨57754, x, y, 0.6, l, 37⟩
    u.ut1Utc - u.taiUtc = v.ut1Utc - v.taiUtc ∧
      ∃ e, getCurrentEop (twoDays u v) 57753.5 = .ok (some e) ∧ e.ut1Utc - e.taiUtc = u.ut1Utc - u.taiUtc + 0.5 := by
  intro u v
  refine ⟨by norm_num [u, v], ?_⟩
  have hfl : ⌊(57753.5 : ℝ)⌋ = 57753 := by rw [Int.floor_eq_iff]; norm_num
  obtain ⟨pre, post, r1, r2, hg⟩ := (C13_lookup (twoDays u v) ⟨rfl, rfl, rfl, rfl, rfl⟩ 57753.5).2 rfl 0
    (by rw [hfl]; simp [twoDays, u]) (by intro j hj; omega)
  refine ⟨_, hg, ?_⟩
  have e1 : pre.ut1Utc = u.ut1Utc := by have := r1.2.2.2.1; simp [twoDays] at this; exact this.symm
  have e2 : pre.taiUtc = u.taiUtc := by have := r1.2.2.2.2.2; simp [twoDays] at this; exact this.symm
  have e3 : post.ut1Utc = v.ut1Utc := by have := r2.2.2.2.1; simp [twoDays] at this; exact this.symm
  have hfr : Int.fract (57753.5 : ℝ) = 1 / 2 := by rw [Int.fract, hfl]; norm_num
  simp only [e1, e2, e3, hfr, between, u, v]
  norm_num

end NavFuse.Props
