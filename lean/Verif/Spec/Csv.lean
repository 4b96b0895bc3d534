/-! # Comma-separated text, independent of the model: how such a file is written -/

namespace NavFuse.Spec

/-- pieces with a separator between them -/
def joinWith (d : Char) : List (List Char) → List Char
  | [] => []
  | [f] => f
  | f :: g :: fs => f ++ d :: joinWith d (g :: fs)

/-- a text file with the given lines; the last one may or may not be ended by a newline -/
def textFile (lines : List (List Char)) (finalNewline : Bool) : List Char :=
  joinWith '\n' lines ++ (if finalNewline then ['\n'] else [])

/-- the six numbers of a data line that matter -/
structure EopRow (α : Type) where
  mjd : α
  xPole : α
  yPole : α
  ut1Utc : α
  lod : α
  taiUtc : α

/-- The fields of a data line of the EOP file: at least eleven, without separators inside, and those in columns 1-5 and 10 (counting from 0)
are the numerals of the given row. -/
structure DataLine {α : Type} (numeral : List Char → Option α) (F : List (List Char)) (r : EopRow α) : Prop where
  cols : 11 ≤ F.length
  clean : ∀ f ∈ F, ',' ∉ f ∧ '\n' ∉ f
  mjd : F[1]?.bind numeral = some r.mjd
  xPole : F[2]?.bind numeral = some r.xPole
  yPole : F[3]?.bind numeral = some r.yPole
  ut1Utc : F[4]?.bind numeral = some r.ut1Utc
  lod : F[5]?.bind numeral = some r.lod
  taiUtc : F[10]?.bind numeral = some r.taiUtc

end NavFuse.Spec
