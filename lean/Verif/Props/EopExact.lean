import Verif.Props.Eop

/-! # C15: exactly which files make a later lookup read outside the table -/

namespace NavFuse.Props
open Spec Rotations

/-- the number of data lines of a file with at least `m` columns -/
def linesWith (text : List Char) (m : Nat) : Nat := ((getlines '\n' text).tail.filter fun l => m ≤ (getlines ',' l).length).length

theorem linesWith_anti (text : List Char) {m n : Nat} (h : m ≤ n) : linesWith text n ≤ linesWith text m := by
  unfold linesWith
  rw [← List.countP_eq_length_filter, ← List.countP_eq_length_filter]
  refine List.countP_mono_left fun l _ hl => ?_
  simp only [decide_eq_true_eq] at hl ⊢
  omega

theorem filterMap_length {α β : Type} (L : List β) (f : β → Option α) (p : β → Bool) (h : ∀ l ∈ L, (f l).isSome = p l) :
    (L.filterMap f).length = (L.filter p).length := by
  induction L with
  | nil => rfl
  | cons a L ih =>
    have ih := ih fun l hl => h l (List.mem_cons_of_mem _ hl)
    have h0 := h a List.mem_cons_self
    cases hf : f a with
    | none => rw [hf] at h0; rw [List.filterMap_cons_none hf, List.filter_cons_of_neg (by rw [← h0]; simp), ih]
    | some x => rw [hf] at h0; rw [List.filterMap_cons_some hf, List.filter_cons_of_pos (by rw [← h0]; rfl), List.length_cons, List.length_cons, ih]

section anyScalar
variable {α : Type}

/-- the lengths of the columns after a successful load -/
theorem column_lengths (stod : List Char → Option α) (text : List Char) (obj obj' : Obj α) (h : getEops stod ⟨true, some text⟩ obj = (some true, obj')) :
    obj'.eops.mjd.length = linesWith text 2 ∧ obj'.eops.xPole.length = linesWith text 3 ∧ obj'.eops.yPole.length = linesWith text 4 ∧
    obj'.eops.ut1Utc.length = linesWith text 5 ∧ obj'.eops.lod.length = linesWith text 6 ∧ obj'.eops.taiUtc.length = linesWith text 11 := by
  obtain ⟨-, hs, e1, e2, e3, e4, e5, e6⟩ := C12_rows_read_partial stod text obj obj' h
  have key : ∀ i ∈ [1, 2, 3, 4, 5, 10], ((getlines '\n' text).tail.filterMap (fun l => (getlines ',' l)[i]?.bind stod)).length = linesWith text (i + 1) := by
    intro i hi
    refine filterMap_length _ _ _ fun l hl => ?_
    by_cases hlt : i < (getlines ',' l).length
    · have := hs l hl i hi _ (List.getElem?_eq_getElem hlt)
      rw [List.getElem?_eq_getElem hlt, Option.bind_some, this]
      simp; omega
    · rw [List.getElem?_eq_none (by omega)]
      simp; omega
  rw [e1, e2, e3, e4, e5, e6]
  exact ⟨key 1 (by simp), key 2 (by simp), key 3 (by simp), key 4 (by simp), key 5 (by simp), key 10 (by simp)⟩

variable [Add α] [Sub α] [Mul α] [Div α] [Flt α]

omit [Add α] [Sub α] [Mul α] [Div α] [Flt α] in
theorem colGet_ok {v : List α} {i : Nat} : (∃ x, colGet v i = .ok x) ↔ i < v.length := by
  unfold colGet
  by_cases h : i < v.length
  · simp [h]
  · simp [h]

/-- C15, exactly: after loading a file, a lookup of the day in row `i` is within the table if and only if more than `i` of the lines with a day have the TAI-UTC
column and the row it interpolates towards exists in the columns before it. -/
theorem C15_lookup_characterised (stod : List Char → Option α) (text : List Char) (obj obj' : Obj α) (h : getEops stod ⟨true, some text⟩ obj = (some true, obj'))
    (mjd : α) : (∃ r, getCurrentEop obj' mjd = .ok r) ↔
      ∀ i, obj'.eops.mjd.findIdx? (fun m => Flt.eq m (Flt.floor mjd)) = some i → min (i + 1) (linesWith text 2 - 1) < linesWith text 6 ∧ i < linesWith text 11 := by
  obtain ⟨n1, n2, n3, n4, n5, n6⟩ := column_lengths stod text obj obj' h
  have hset := (C12_rows_read_partial stod text obj obj' h).1
  have a3 := linesWith_anti text (show 3 ≤ 6 by norm_num)
  have a4 := linesWith_anti text (show 4 ≤ 6 by norm_num)
  have a5 := linesWith_anti text (show 5 ≤ 6 by norm_num)
  have a11 := linesWith_anti text (show 6 ≤ 11 by norm_num)
  unfold getCurrentEop
  rw [hset]
  simp only [Bool.not_true, Bool.false_eq_true, if_false]
  cases hf : obj'.eops.mjd.findIdx? (fun m => Flt.eq m (Flt.floor mjd)) with
  | none => simp
  | some i =>
    have hi : i < obj'.eops.mjd.length := by rw [List.findIdx?_eq_some_iff_getElem] at hf; exact hf.1
    have hj : (if i = obj'.eops.mjd.length - 1 then i else i + 1) = min (i + 1) (linesWith text 2 - 1) := by split_ifs <;> omega
    simp only [Option.some.injEq, forall_eq']
    constructor
    · rintro ⟨r, hr⟩
      have step : ∀ {β γ : Type} (o : Out β) (k : β → Out γ) (r : γ), (o >>= k) = .ok r → ∃ x, o = .ok x ∧ k x = .ok r := by
        intro β γ o k r ho
        cases o with
        | ok x => exact ⟨x, rfl, ho⟩
        | error u => cases ho
      obtain ⟨_, -, hr⟩ := step _ _ _ hr
      obtain ⟨_, -, hr⟩ := step _ _ _ hr
      obtain ⟨_, -, hr⟩ := step _ _ _ hr
      obtain ⟨_, -, hr⟩ := step _ _ _ hr
      obtain ⟨_, hT, hr⟩ := step _ _ _ hr
      obtain ⟨_, -, hr⟩ := step _ _ _ hr
      obtain ⟨_, -, hr⟩ := step _ _ _ hr
      obtain ⟨_, -, hr⟩ := step _ _ _ hr
      obtain ⟨_, hL, hr⟩ := step _ _ _ hr
      have h1 := colGet_ok.1 ⟨_, hT⟩
      have h2 := colGet_ok.1 ⟨_, hL⟩
      rw [hj] at h2
      exact ⟨n5 ▸ h2, n6 ▸ h1⟩
    · rintro ⟨h6, h11⟩
      rw [hj]
      obtain ⟨x1, e1⟩ := colGet_ok.2 (show i < obj'.eops.xPole.length by omega)
      obtain ⟨x2, e2⟩ := colGet_ok.2 (show i < obj'.eops.yPole.length by omega)
      obtain ⟨x3, e3⟩ := colGet_ok.2 (show i < obj'.eops.ut1Utc.length by omega)
      obtain ⟨x4, e4⟩ := colGet_ok.2 (show i < obj'.eops.lod.length by omega)
      obtain ⟨x5, e5⟩ := colGet_ok.2 (show i < obj'.eops.taiUtc.length by omega)
      obtain ⟨y1, g1⟩ := colGet_ok.2 (show min (i + 1) (linesWith text 2 - 1) < obj'.eops.xPole.length by omega)
      obtain ⟨y2, g2⟩ := colGet_ok.2 (show min (i + 1) (linesWith text 2 - 1) < obj'.eops.yPole.length by omega)
      obtain ⟨y3, g3⟩ := colGet_ok.2 (show min (i + 1) (linesWith text 2 - 1) < obj'.eops.ut1Utc.length by omega)
      obtain ⟨y4, g4⟩ := colGet_ok.2 (show min (i + 1) (linesWith text 2 - 1) < obj'.eops.lod.length by omega)
      simp only [e1, e2, e3, e4, e5, g1, g2, g3, g4, osimp]
      exact ⟨_, rfl⟩
end anyScalar

/-- C15, exactly: let the last day of the file be a whole number that does not occur before. No lookup of any time ever reads outside the table if and only if
every line that has a day has all eleven columns, which is the hypothesis of `C15_lookup_partial`. -/
theorem C15_characterised (stod : List Char → Option ℝ) (text : List Char) (obj obj' : Obj ℝ) (h : getEops stod ⟨true, some text⟩ obj = (some true, obj'))
    (days : List ℝ) (d : ℤ) (hlast : obj'.eops.mjd = days ++ [(d : ℝ)]) (hnew : (d : ℝ) ∉ days) :
    (∀ mjd, ∃ r, getCurrentEop obj' mjd = .ok r) ↔ ∀ l ∈ (getlines '\n' text).tail, (getlines ',' l).length < 2 ∨ 11 ≤ (getlines ',' l).length := by
  refine ⟨fun hall => ?_, fun hl mjd => C15_lookup_partial stod text obj obj' hl h mjd⟩
  have n1 := (column_lengths stod text obj obj' h).1
  have hlen : obj'.eops.mjd.length = days.length + 1 := by rw [hlast]; simp
  have hfind : obj'.eops.mjd.findIdx? (fun m => Flt.eq m (Flt.floor (d : ℝ))) = some days.length := by
    rw [hlast, List.findIdx?_append, List.findIdx?_eq_none_iff.2]
    · simp [R_eq, R_floor, List.findIdx?_cons]
    · intro x hx
      rw [R_floor, Int.floor_intCast, Bool.eq_false_iff, Ne, R_eq]
      rintro rfl; exact hnew hx
  have h11 := ((C15_lookup_characterised stod text obj obj' h (d : ℝ)).1 (hall _) _ hfind).2
  have heq : linesWith text 11 = linesWith text 2 := by
    have := linesWith_anti text (show 2 ≤ 11 by norm_num)
    omega
  intro l hl
  by_contra hn
  push Not at hn
  have : linesWith text 11 < linesWith text 2 := by
    unfold linesWith
    rw [← List.countP_eq_length_filter, ← List.countP_eq_length_filter]
    obtain ⟨l1, l2, e⟩ := List.append_of_mem hl
    rw [e, List.countP_append, List.countP_append, List.countP_cons_of_neg (by simp; omega), List.countP_cons_of_pos (by simp; omega)]
    have mono : ∀ L : List (List Char), List.countP (fun l => decide (11 ≤ (getlines ',' l).length)) L ≤ List.countP (fun l => decide (2 ≤ (getlines ',' l).length)) L :=
      fun L => List.countP_mono_left fun l _ hl => by simp only [decide_eq_true_eq] at hl ⊢; omega
    have := mono l1; have := mono l2
    omega
  omega

/-- non-vacuity: a file whose second line is short, for any reader that accepts its numbers -/
example (stod : List Char → Option ℝ) (h5 : stod ['5'] = some 5) (h6 : stod ['6'] = some 6) (obj : Obj ℝ) :
    ∃ obj', getEops stod ⟨true, some "h\nd,5,5,5,5,5,,,,,5\nd,6".toList⟩ obj = (some true, obj') ∧ obj'.eops.mjd = [5] ++ [((6 : ℤ) : ℝ)] ∧ ((6 : ℤ) : ℝ) ∉ [(5 : ℝ)] := by
  have hg : (getlines '\n' "h\nd,5,5,5,5,5,,,,,5\nd,6".toList).tail = ["d,5,5,5,5,5,,,,,5".toList, "d,6".toList] := by decide
  have hg' : getlines ',' "d,5,5,5,5,5,,,,,5".toList = [['d'], ['5'], ['5'], ['5'], ['5'], ['5'], [], [], [], [], ['5']] := by decide
  have hg2 : getlines ',' "d,6".toList = [['d'], ['6']] := by decide
  refine ⟨⟨true, ⟨[5, 6], [5], [5], [5], [5], [5]⟩⟩, ?_, by norm_num, by norm_num⟩
  simp only [getEops, Option.getD_some, hg, readRows, hg', hg2, pushFields, pushField, h5, h6, osimp]
  simp [osimp]

end NavFuse.Props
