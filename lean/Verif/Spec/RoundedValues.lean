import Verif.Spec.RoundedChoice

/-! # What acquisition functions stand for, and errors of their computed values -/

namespace Verif.Spec

/-- The value of an acquisition function at a point where predictions are normal with mean `m` and deviation
`s`: `b` is the best response, `κ` the weight of the deviation and `σ` the noise, for the functions that use
them. -/
noncomputable def acqMeaning (acq : String) (b κ σ m s : ℝ) : ℝ :=
  if acq = "pi" then improvementChance b m s
  else if acq = "ei" then meanImprovement b m s
  else if acq = "ucb" then -m + κ * s
  else if acq = "aei" then meanImprovement b m s * (1 - σ / √(s ^ 2 + σ ^ 2))
  else if acq = "pure_exploit" then -m
  else s

/-- How far a computed value of an acquisition function may be from that: means are off by at most `em`,
deviations by at most `es`, library functions by `η`, `D` bounds the size of predictions, and `w` is below all
deviations. -/
noncomputable def acqError (acq : String) (η κ σ em es D w : ℝ) : ℝ :=
  if acq = "pi" then 4 / 5 * ((es + 1 / 80000) / (w - es)) + 2 / 5 * (em / (w - es)) + (η + 3 / 2 ^ 53)
  else if acq = "ei" then
    3 / 2 * em + es + ((η + 8 / 2 ^ 53) * (D + em + es) + (2 : ℝ) ^ (-1073 : ℤ)) + 1 / 200000
  else if acq = "ucb" then
    em + κ * es + ((η + 6 / 2 ^ 53) * (D + em + κ * es) + (2 : ℝ) ^ (-1074 : ℤ) * (1 + D + es))
  else if acq = "aei" then
    3 / 2 * em + es + 1 / 200000 + (D + 1 / 200000) * (es / σ) +
      ((η + 32 / 2 ^ 53) * (D + em + es) + (2 : ℝ) ^ (-1072 : ℤ))
  else if acq = "pure_exploit" then em
  else es

end Verif.Spec
