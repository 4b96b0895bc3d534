/-! # The coefficients of the nutation series (src/util/Rotations.cpp:673-780)

Copied entry by entry from the source; `C[106][9]` there. -/

namespace NavFuse.Rotations

/-- one row `C[i]` of the nutation table: multipliers of l, l', F, D, Ω, then the coefficients of Δψ and Δε with their rates -/
structure NutRow where
  c0 : Int
  c1 : Int
  c2 : Int
  c3 : Int
  c4 : Int
  c5 : Int
  c6 : Int
  c7 : Int
  c8 : Int
  deriving DecidableEq

/-- `C`, src/util/Rotations.cpp:673-780 -/
def nutTable : List NutRow := [
  ⟨0, 0, 0, 0, 1, -1719960, -1742, 920250, 89⟩,
  ⟨0, 0, 0, 0, 2, 20620, 2, -8950, 5⟩,
  ⟨-2, 0, 2, 0, 1, 460, 0, -240, 0⟩,
  ⟨2, 0, -2, 0, 0, 110, 0, 0, 0⟩,
  ⟨-2, 0, 2, 0, 2, -30, 0, 10, 0⟩,
  ⟨1, -1, 0, -1, 0, -30, 0, 0, 0⟩,
  ⟨0, -2, 2, -2, 1, -20, 0, 10, 0⟩,
  ⟨2, 0, -2, 0, 1, 10, 0, 0, 0⟩,
  ⟨0, 0, 2, -2, 2, -131870, -16, 57360, -31⟩,
  ⟨0, 1, 0, 0, 0, 14260, -34, 540, -1⟩,
  ⟨0, 1, 2, -2, 2, -5170, 12, 2240, -6⟩,
  ⟨0, -1, 2, -2, 2, 2170, -5, -950, 3⟩,
  ⟨0, 0, 2, -2, 1, 1290, 1, -700, 0⟩,
  ⟨2, 0, 0, -2, 0, 480, 0, 10, 0⟩,
  ⟨0, 0, 2, -2, 0, -220, 0, 0, 0⟩,
  ⟨0, 2, 0, 0, 0, 170, -1, 0, 0⟩,
  ⟨0, 1, 0, 0, 1, -150, 0, 90, 0⟩,
  ⟨0, 2, 2, -2, 2, -160, 1, 70, 0⟩,
  ⟨0, -1, 0, 0, 1, -120, 0, 60, 0⟩,
  ⟨-2, 0, 0, 2, 1, -60, 0, 30, 0⟩,
  ⟨0, -1, 2, -2, 1, -50, 0, 30, 0⟩,
  ⟨2, 0, 0, -2, 1, 40, 0, -20, 0⟩,
  ⟨0, 1, 2, -2, 1, 40, 0, -20, 0⟩,
  ⟨1, 0, 0, -1, 0, -40, 0, 0, 0⟩,
  ⟨2, 1, 0, -2, 0, 10, 0, 0, 0⟩,
  ⟨0, 0, -2, 2, 1, 10, 0, 0, 0⟩,
  ⟨0, 1, -2, 2, 0, -10, 0, 0, 0⟩,
  ⟨0, 1, 0, 0, 2, 10, 0, 0, 0⟩,
  ⟨-1, 0, 0, 1, 1, 10, 0, 0, 0⟩,
  ⟨0, 1, 2, -2, 0, -10, 0, 0, 0⟩,
  ⟨0, 0, 2, 0, 2, -22740, -2, 9770, -5⟩,
  ⟨1, 0, 0, 0, 0, 7120, 1, -70, 0⟩,
  ⟨0, 0, 2, 0, 1, -3860, -4, 2000, 0⟩,
  ⟨1, 0, 2, 0, 2, -3010, 0, 1290, -1⟩,
  ⟨1, 0, 0, -2, 0, -1580, 0, -10, 0⟩,
  ⟨-1, 0, 2, 0, 2, 1230, 0, -530, 0⟩,
  ⟨0, 0, 0, 2, 0, 630, 0, -20, 0⟩,
  ⟨1, 0, 0, 0, 1, 630, 1, -330, 0⟩,
  ⟨-1, 0, 0, 0, 1, -580, -1, 320, 0⟩,
  ⟨-1, 0, 2, 2, 2, -590, 0, 260, 0⟩,
  ⟨1, 0, 2, 0, 1, -510, 0, 270, 0⟩,
  ⟨0, 0, 2, 2, 2, -380, 0, 160, 0⟩,
  ⟨2, 0, 0, 0, 0, 290, 0, -10, 0⟩,
  ⟨1, 0, 2, -2, 2, 290, 0, -120, 0⟩,
  ⟨2, 0, 2, 0, 2, -310, 0, 130, 0⟩,
  ⟨0, 0, 2, 0, 0, 260, 0, -10, 0⟩,
  ⟨-1, 0, 2, 0, 1, 210, 0, -100, 0⟩,
  ⟨-1, 0, 0, 2, 1, 160, 0, -80, 0⟩,
  ⟨1, 0, 0, -2, 1, -130, 0, 70, 0⟩,
  ⟨-1, 0, 2, 2, 1, -100, 0, 50, 0⟩,
  ⟨1, 1, 0, -2, 0, -70, 0, 0, 0⟩,
  ⟨0, 1, 2, 0, 2, 70, 0, -30, 0⟩,
  ⟨0, -1, 2, 0, 2, -70, 0, 30, 0⟩,
  ⟨1, 0, 2, 2, 2, -80, 0, 30, 0⟩,
  ⟨1, 0, 0, 2, 0, 60, 0, 0, 0⟩,
  ⟨2, 0, 2, -2, 2, 60, 0, -30, 0⟩,
  ⟨0, 0, 0, 2, 1, -60, 0, 30, 0⟩,
  ⟨0, 0, 2, 2, 1, -70, 0, 30, 0⟩,
  ⟨1, 0, 2, -2, 1, 60, 0, -30, 0⟩,
  ⟨0, 0, 0, -2, 1, -50, 0, 30, 0⟩,
  ⟨1, -1, 0, 0, 0, 50, 0, 0, 0⟩,
  ⟨2, 0, 2, 0, 1, -50, 0, 30, 0⟩,
  ⟨0, 1, 0, -2, 0, -40, 0, 0, 0⟩,
  ⟨1, 0, -2, 0, 0, 40, 0, 0, 0⟩,
  ⟨0, 0, 0, 1, 0, -40, 0, 0, 0⟩,
  ⟨1, 1, 0, 0, 0, -30, 0, 0, 0⟩,
  ⟨1, 0, 2, 0, 0, 30, 0, 0, 0⟩,
  ⟨1, -1, 2, 0, 2, -30, 0, 10, 0⟩,
  ⟨-1, -1, 2, 2, 2, -30, 0, 10, 0⟩,
  ⟨-2, 0, 0, 0, 1, -20, 0, 10, 0⟩,
  ⟨3, 0, 2, 0, 2, -30, 0, 10, 0⟩,
  ⟨0, -1, 2, 2, 2, -30, 0, 10, 0⟩,
  ⟨1, 1, 2, 0, 2, 20, 0, -10, 0⟩,
  ⟨-1, 0, 2, -2, 1, -20, 0, 10, 0⟩,
  ⟨2, 0, 0, 0, 1, 20, 0, -10, 0⟩,
  ⟨1, 0, 0, 0, 2, -20, 0, 10, 0⟩,
  ⟨3, 0, 0, 0, 0, 20, 0, 0, 0⟩,
  ⟨0, 0, 2, 1, 2, 20, 0, -10, 0⟩,
  ⟨-1, 0, 0, 0, 2, 10, 0, -10, 0⟩,
  ⟨1, 0, 0, -4, 0, -10, 0, 0, 0⟩,
  ⟨-2, 0, 2, 2, 2, 10, 0, -10, 0⟩,
  ⟨-1, 0, 2, 4, 2, -20, 0, 10, 0⟩,
  ⟨2, 0, 0, -4, 0, -10, 0, 0, 0⟩,
  ⟨1, 1, 2, -2, 2, 10, 0, -10, 0⟩,
  ⟨1, 0, 2, 2, 1, -10, 0, 10, 0⟩,
  ⟨-2, 0, 2, 4, 2, -10, 0, 10, 0⟩,
  ⟨-1, 0, 4, 0, 2, 10, 0, 0, 0⟩,
  ⟨1, -1, 0, -2, 0, 10, 0, 0, 0⟩,
  ⟨2, 0, 2, -2, 1, 10, 0, -10, 0⟩,
  ⟨2, 0, 2, 2, 2, -10, 0, 0, 0⟩,
  ⟨1, 0, 0, 2, 1, -10, 0, 0, 0⟩,
  ⟨0, 0, 4, -2, 2, 10, 0, 0, 0⟩,
  ⟨3, 0, 2, -2, 2, 10, 0, 0, 0⟩,
  ⟨1, 0, 2, -2, 0, -10, 0, 0, 0⟩,
  ⟨0, 1, 2, 0, 1, 10, 0, 0, 0⟩,
  ⟨-1, -1, 0, 2, 1, 10, 0, 0, 0⟩,
  ⟨0, 0, -2, 0, 1, -10, 0, 0, 0⟩,
  ⟨0, 0, 2, -1, 2, -10, 0, 0, 0⟩,
  ⟨0, 1, 0, 2, 0, -10, 0, 0, 0⟩,
  ⟨1, 0, -2, -2, 0, -10, 0, 0, 0⟩,
  ⟨0, -1, 2, 0, 1, -10, 0, 0, 0⟩,
  ⟨1, 1, 0, -2, 1, -10, 0, 0, 0⟩,
  ⟨1, 0, -2, 2, 0, -10, 0, 0, 0⟩,
  ⟨2, 0, 0, 2, 0, 10, 0, 0, 0⟩,
  ⟨0, 0, 2, 4, 2, -10, 0, 0, 0⟩,
  ⟨0, 1, 0, 1, 0, 10, 0, 0, 0⟩]

end NavFuse.Rotations
