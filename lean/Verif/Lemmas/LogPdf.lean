import Verif.Lemmas.Scores
import Mathlib.Analysis.SpecialFunctions.Pow.Deriv

/-! Positivity of the densities and the closed forms of their logarithms. -/

namespace Ondil
open Dist

theorem Flt.log_pos {p : ℝ} (hp : 0 < p) : Flt.log (.fin p) = .fin (Real.log p) := if_pos hp

theorem stdNormPdf_pos (z : ℝ) : 0 < stdNormPdf z := by
  unfold stdNormPdf
  have := Real.pi_pos
  positivity

theorem log_stdNormPdf (z : ℝ) :
    Real.log (stdNormPdf z) = -(z ^ 2 / 2) - Real.log (Real.sqrt (2 * Real.pi)) := by
  unfold stdNormPdf
  have h : 0 < Real.sqrt (2 * Real.pi) := Real.sqrt_pos.mpr (by have := Real.pi_pos; positivity)
  rw [Real.log_div (Real.exp_pos _).ne' h.ne', Real.log_exp]
  ring

namespace Frozen

theorem norm_pdf {m s : ℝ} (hs : 0 < s) (y : ℝ) :
    0 < (Frozen.norm m s).pdf y ∧ Real.log ((Frozen.norm m s).pdf y) = normalL y m s := by
  have e : (Frozen.norm m s).pdf y = stdNormPdf ((y - m) / s) / s := rfl
  have hp := stdNormPdf_pos ((y - m) / s)
  refine ⟨by rw [e]; positivity, ?_⟩
  rw [e, Real.log_div hp.ne' hs.ne', log_stdNormPdf]
  unfold normalL
  ring

theorem t_pdf {df m s : ℝ} (hd : 0 < df) (hs : 0 < s) (y : ℝ) :
    0 < (Frozen.t df m s).pdf y ∧ Real.log ((Frozen.t df m s).pdf y) = studentL y m s df := by
  have e : (Frozen.t df m s).pdf y = Real.Gamma ((df + 1) / 2) / (Real.sqrt (Real.pi * df) *
      Real.Gamma (df / 2)) * (1 + ((y - m) / s) ^ 2 / df) ^ (-(df + 1) / 2) / s := rfl
  have g1 : 0 < Real.Gamma ((df + 1) / 2) := Real.Gamma_pos_of_pos (by linarith)
  have g2 : 0 < Real.Gamma (df / 2) := Real.Gamma_pos_of_pos (by linarith)
  have hpi := Real.pi_pos
  have hq : 0 < Real.sqrt (Real.pi * df) := Real.sqrt_pos.mpr (by positivity)
  have hb : 0 < 1 + ((y - m) / s) ^ 2 / df := by positivity
  have hbp : 0 < (1 + ((y - m) / s) ^ 2 / df) ^ (-(df + 1) / 2) := Real.rpow_pos_of_pos hb _
  refine ⟨by rw [e]; positivity, ?_⟩
  rw [e, Real.log_div (by positivity) hs.ne', Real.log_mul (by positivity) hbp.ne',
    Real.log_div g1.ne' (by positivity), Real.log_mul hq.ne' g2.ne', Real.log_rpow hb,
    Real.log_sqrt (by positivity), Real.log_mul hpi.ne' hd.ne']
  unfold studentL logGamma
  ring

theorem johnsonsu_pdf {a b m s : ℝ} (hb : 0 < b) (hs : 0 < s) (y : ℝ) :
    0 < (Frozen.johnsonsu a b m s).pdf y ∧
      Real.log ((Frozen.johnsonsu a b m s).pdf y) = jsuL y m s a b := by
  have e : (Frozen.johnsonsu a b m s).pdf y = b / Real.sqrt (((y - m) / s) ^ 2 + 1) *
      stdNormPdf (a + b * Real.arsinh ((y - m) / s)) / s := rfl
  have hp := stdNormPdf_pos (a + b * Real.arsinh ((y - m) / s))
  have hq1 : 0 < ((y - m) / s) ^ 2 + 1 := by positivity
  have hq : 0 < Real.sqrt (((y - m) / s) ^ 2 + 1) := Real.sqrt_pos.mpr hq1
  refine ⟨by rw [e]; positivity, ?_⟩
  rw [e, Real.log_div (by positivity) hs.ne', Real.log_mul (by positivity) hp.ne',
    Real.log_div hb.ne' hq.ne', log_stdNormPdf, Real.log_sqrt hq1.le]
  unfold jsuL
  ring

theorem gamma_pdf {a s y : ℝ} (ha : 0 < a) (hs : 0 < s) (hy : 0 < y) :
    0 < (Frozen.gamma a 0 s).pdf y ∧ Real.log ((Frozen.gamma a 0 s).pdf y) =
      (a - 1) * (Real.log y - Real.log s) - y / s - logGamma a - Real.log s := by
  have hz : 0 < (y - 0) / s := by rw [sub_zero]; positivity
  have e : (Frozen.gamma a 0 s).pdf y =
      ((y - 0) / s) ^ (a - 1) * Real.exp (-((y - 0) / s)) / Real.Gamma a / s := by
    change (if 0 < (y - 0) / s then _ else _) / s = _
    rw [if_pos hz]; rfl
  rw [sub_zero] at e hz
  have hg := Real.Gamma_pos_of_pos ha
  have hp : 0 < (y / s) ^ (a - 1) := Real.rpow_pos_of_pos hz _
  refine ⟨by rw [e]; positivity, ?_⟩
  rw [e, Real.log_div (by positivity) hs.ne', Real.log_div (by positivity) hg.ne',
    Real.log_mul hp.ne' (Real.exp_pos _).ne', Real.log_exp, Real.log_rpow hz, Real.log_div hy.ne' hs.ne']
  unfold logGamma
  ring

theorem beta_pdf {a b y : ℝ} (ha : 0 < a) (hb : 0 < b) (hy : 0 < y) (hy1 : y < 1) :
    0 < (Frozen.beta a b 0 1).pdf y ∧ Real.log ((Frozen.beta a b 0 1).pdf y) =
      logGamma (a + b) + (a - 1) * Real.log y + (b - 1) * Real.log (1 - y) - logGamma a - logGamma b := by
  have e : (Frozen.beta a b 0 1).pdf y = Real.Gamma (a + b) * y ^ (a - 1) * (1 - y) ^ (b - 1) /
      (Real.Gamma a * Real.Gamma b) := by
    change (if 0 < (y - 0) / 1 ∧ (y - 0) / 1 < 1 then _ else _) / (1 : ℝ) = _
    rw [sub_zero, div_one, div_one, if_pos ⟨hy, hy1⟩]
    change Real.Gamma (a + b) * ((y - 0) / 1) ^ (a - 1) * (1 - (y - 0) / 1) ^ (b - 1) / _ = _
    rw [sub_zero, div_one]
  have h1y : 0 < 1 - y := by linarith
  have ga := Real.Gamma_pos_of_pos ha
  have gb := Real.Gamma_pos_of_pos hb
  have gab := Real.Gamma_pos_of_pos (add_pos ha hb)
  have p1 : 0 < y ^ (a - 1) := Real.rpow_pos_of_pos hy _
  have p2 : 0 < (1 - y) ^ (b - 1) := Real.rpow_pos_of_pos h1y _
  refine ⟨by rw [e]; positivity, ?_⟩
  rw [e, Real.log_div (by positivity) (by positivity), Real.log_mul (by positivity) p2.ne',
    Real.log_mul gab.ne' p1.ne', Real.log_mul ga.ne' gb.ne', Real.log_rpow hy, Real.log_rpow h1y]
  unfold logGamma
  ring

theorem lognorm_pdf {sh s y : ℝ} (hsh : 0 < sh) (hs : 0 < s) (hy : 0 < y) :
    0 < (Frozen.lognorm sh 0 s).pdf y ∧
      Real.log ((Frozen.lognorm sh 0 s).pdf y) = logNormalL y (Real.log s) sh := by
  have hz : 0 < (y - 0) / s := by rw [sub_zero]; positivity
  have e : (Frozen.lognorm sh 0 s).pdf y = 1 / (sh * ((y - 0) / s) * Real.sqrt (2 * Real.pi)) *
      Real.exp (-Real.log ((y - 0) / s) ^ 2 / (2 * sh ^ 2)) / s := by
    change (if 0 < (y - 0) / s then _ else _) / s = _
    rw [if_pos hz]; rfl
  rw [sub_zero] at e hz
  have hq : 0 < Real.sqrt (2 * Real.pi) := Real.sqrt_pos.mpr (by have := Real.pi_pos; positivity)
  refine ⟨by rw [e]; positivity, ?_⟩
  rw [e, Real.log_div (by positivity) hs.ne', Real.log_mul (by positivity) (Real.exp_pos _).ne',
    Real.log_exp, Real.log_div one_ne_zero (by positivity), Real.log_one, Real.log_mul (by positivity) hq.ne',
    Real.log_mul hsh.ne' hz.ne', Real.log_div hy.ne' hs.ne']
  unfold logNormalL
  ring

theorem logistic_pdf {m s : ℝ} (hs : 0 < s) (y : ℝ) :
    0 < (Frozen.logistic m s).pdf y ∧ Real.log ((Frozen.logistic m s).pdf y) = logisticL y m s := by
  have e : (Frozen.logistic m s).pdf y =
      Real.exp (-((y - m) / s)) / (1 + Real.exp (-((y - m) / s))) ^ 2 / s := rfl
  refine ⟨by rw [e]; positivity, ?_⟩
  rw [e, Real.log_div (by positivity) hs.ne', Real.log_div (Real.exp_pos _).ne' (by positivity),
    Real.log_exp, Real.log_pow]
  unfold logisticL
  push_cast
  ring

theorem gumbelL_pdf {m s : ℝ} (hs : 0 < s) (y : ℝ) :
    0 < (Frozen.gumbelL m s).pdf y ∧ Real.log ((Frozen.gumbelL m s).pdf y) = Dist.gumbelL y m s := by
  have e : (Frozen.gumbelL m s).pdf y = Real.exp ((y - m) / s - Real.exp ((y - m) / s)) / s := rfl
  refine ⟨by rw [e]; positivity, ?_⟩
  rw [e, Real.log_div (by positivity) hs.ne', Real.log_exp]
  rfl

theorem gumbelR_pdf {m s : ℝ} (hs : 0 < s) (y : ℝ) :
    0 < (Frozen.gumbelR m s).pdf y ∧ Real.log ((Frozen.gumbelR m s).pdf y) = reverseGumbelL y m s := by
  have e : (Frozen.gumbelR m s).pdf y = Real.exp (-((y - m) / s + Real.exp (-((y - m) / s)))) / s := rfl
  refine ⟨by rw [e]; positivity, ?_⟩
  rw [e, Real.log_div (by positivity) hs.ne', Real.log_exp]
  unfold reverseGumbelL
  ring

theorem expon_pdf {s y : ℝ} (hs : 0 < s) (hy : 0 ≤ y) :
    0 < (Frozen.expon 0 s).pdf y ∧ Real.log ((Frozen.expon 0 s).pdf y) = exponentialL y s := by
  have hz : 0 ≤ (y - 0) / s := by rw [sub_zero]; positivity
  have e : (Frozen.expon 0 s).pdf y = Real.exp (-((y - 0) / s)) / s := by
    change (if 0 ≤ (y - 0) / s then _ else _) / s = _
    rw [if_pos hz]; rfl
  rw [sub_zero] at e
  refine ⟨by rw [e]; positivity, ?_⟩
  rw [e, Real.log_div (by positivity) hs.ne', Real.log_exp]
  rfl

theorem invgamma_pdf {a s y : ℝ} (ha : 0 < a) (hs : 0 < s) (hy : 0 < y) :
    0 < (Frozen.invgamma a 0 s).pdf y ∧ Real.log ((Frozen.invgamma a 0 s).pdf y) =
      (-a - 1) * (Real.log y - Real.log s) - logGamma a - s / y - Real.log s := by
  have hz : 0 < (y - 0) / s := by rw [sub_zero]; positivity
  have e : (Frozen.invgamma a 0 s).pdf y =
      ((y - 0) / s) ^ (-a - 1) / Real.Gamma a * Real.exp (-1 / ((y - 0) / s)) / s := by
    change (if 0 < (y - 0) / s then _ else _) / s = _
    rw [if_pos hz]; rfl
  rw [sub_zero] at e hz
  have hg := Real.Gamma_pos_of_pos ha
  have hp : 0 < (y / s) ^ (-a - 1) := Real.rpow_pos_of_pos hz _
  refine ⟨by rw [e]; positivity, ?_⟩
  rw [e, Real.log_div (by positivity) hs.ne', Real.log_mul (by positivity) (Real.exp_pos _).ne',
    Real.log_div hp.ne' hg.ne', Real.log_exp, Real.log_rpow hz, Real.log_div hy.ne' hs.ne']
  unfold logGamma
  field_simp
  ring

theorem invgauss_pdf {mu s y : ℝ} (hm : 0 < mu) (hs : 0 < s) (hy : 0 < y) :
    0 < (Frozen.invgauss mu 0 s).pdf y ∧ Real.log ((Frozen.invgauss mu 0 s).pdf y) =
      -(Real.log (2 * Real.pi) + 3 * (Real.log y - Real.log s)) / 2
        - (y / s - mu) ^ 2 / (2 * (y / s) * mu ^ 2) - Real.log s := by
  have hz : 0 < (y - 0) / s := by rw [sub_zero]; positivity
  have e : (Frozen.invgauss mu 0 s).pdf y = 1 / Real.sqrt (2 * Real.pi * ((y - 0) / s) ^ 3) *
      Real.exp (-((y - 0) / s - mu) ^ 2 / (2 * ((y - 0) / s) * mu ^ 2)) / s := by
    change (if 0 < (y - 0) / s then _ else _) / s = _
    rw [if_pos hz]; rfl
  rw [sub_zero] at e hz
  have hpi := Real.pi_pos
  have hq0 : 0 < 2 * Real.pi * (y / s) ^ 3 := by positivity
  have hq : 0 < Real.sqrt (2 * Real.pi * (y / s) ^ 3) := Real.sqrt_pos.mpr hq0
  refine ⟨by rw [e]; positivity, ?_⟩
  rw [e, Real.log_div (by positivity) hs.ne', Real.log_mul (by positivity) (Real.exp_pos _).ne',
    Real.log_exp, Real.log_div one_ne_zero hq.ne', Real.log_one, Real.log_sqrt hq0.le,
    Real.log_mul (by positivity) (by positivity), Real.log_pow, Real.log_div hy.ne' hs.ne']
  push_cast
  ring

end Frozen

namespace Dist

theorem gamma_logpdf (y : ℝ) (θ : ℕ → ℝ) (hy : 0 < y) (h0 : 0 < θ 0) (h1 : 0 < θ 1) :
    0 < (Frozen.gamma (1 / θ 1 ^ 2) 0 (1 / (1 / (θ 1 ^ 2 * θ 0)))).pdf y ∧
    Real.log ((Frozen.gamma (1 / θ 1 ^ 2) 0 (1 / (1 / (θ 1 ^ 2 * θ 0)))).pdf y) = gammaL y (θ 0) (θ 1) := by
  have h := Frozen.gamma_pdf (a := 1 / θ 1 ^ 2) (s := 1 / (1 / (θ 1 ^ 2 * θ 0))) (y := y)
    (by positivity) (by positivity) hy
  refine ⟨h.1, h.2.trans ?_⟩
  rw [one_div_one_div, Real.log_mul (by positivity) h0.ne', Real.log_pow]
  unfold gammaL
  push_cast
  ring

theorem inverseGamma_logpdf (y : ℝ) (θ : ℕ → ℝ) (hy : 0 < y) (h0 : 0 < θ 0) (h1 : 0 < θ 1) :
    0 < (Frozen.invgamma (1 / θ 1 ^ 2) 0 (θ 0 * (1 + θ 1 ^ 2) / θ 1 ^ 2)).pdf y ∧
    Real.log ((Frozen.invgamma (1 / θ 1 ^ 2) 0 (θ 0 * (1 + θ 1 ^ 2) / θ 1 ^ 2)).pdf y) =
      inverseGammaL y (θ 0) (θ 1) := by
  have h := Frozen.invgamma_pdf (a := 1 / θ 1 ^ 2) (s := θ 0 * (1 + θ 1 ^ 2) / θ 1 ^ 2) (y := y)
    (by positivity) (by positivity) hy
  refine ⟨h.1, h.2.trans ?_⟩
  have e : θ 0 * (1 + θ 1 ^ 2) / θ 1 ^ 2 = θ 0 * (1 / θ 1 ^ 2 + 1) := by field_simp
  rw [e, Real.log_mul h0.ne' (by positivity)]
  unfold inverseGammaL
  ring

theorem inverseGaussian_logpdf (y : ℝ) (θ : ℕ → ℝ) (hy : 0 < y) (h0 : 0 < θ 0) (h1 : 0 < θ 1) :
    0 < (Frozen.invgauss (θ 0 * θ 1 ^ 2) 0 (1 / θ 1 ^ 2)).pdf y ∧
    Real.log ((Frozen.invgauss (θ 0 * θ 1 ^ 2) 0 (1 / θ 1 ^ 2)).pdf y) =
      inverseGaussianL y (θ 0) (θ 1) := by
  have h := Frozen.invgauss_pdf (mu := θ 0 * θ 1 ^ 2) (s := 1 / θ 1 ^ 2) (y := y)
    (by positivity) (by positivity) hy
  refine ⟨h.1, h.2.trans ?_⟩
  rw [Real.log_div one_ne_zero (by positivity), Real.log_one, Real.log_pow]
  unfold inverseGaussianL
  have e : (y / (1 / θ 1 ^ 2) - θ 0 * θ 1 ^ 2) ^ 2 / (2 * (y / (1 / θ 1 ^ 2)) * (θ 0 * θ 1 ^ 2) ^ 2) =
      (y - θ 0) ^ 2 / (2 * y * θ 0 ^ 2 * θ 1 ^ 2) := by
    field_simp
  rw [e]
  push_cast
  ring

theorem logNormal_logpdf (y : ℝ) (μ σ : ℝ) (hy : 0 < y) (hσ : 0 < σ) :
    logNormalLogPdf y μ σ = .fin (logNormalL y μ σ) ∧
      ∃ p, 0 < p ∧ logNormalPdf y μ σ = .fin p ∧ Real.log p = logNormalL y μ σ := by
  have hq : 0 < Real.sqrt (2 * Real.pi) := Real.sqrt_pos.mpr (by have := Real.pi_pos; positivity)
  have hden : 0 < y * σ * Real.sqrt (2 * Real.pi) := by positivity
  have hdev : Flt.sub (Flt.log (.fin y)) (.fin μ) = .fin (Real.log y - μ) := by
    rw [Flt.log_pos hy]
    simp [Flt.sub, Flt.neg, Flt.add, sub_eq_add_neg]
  have h1 : Flt.div (.fin 1) (.fin (y * σ * Real.sqrt (2 * Real.pi))) =
      .fin (1 / (y * σ * Real.sqrt (2 * Real.pi))) := if_neg hden.ne'
  have h2 : Flt.div (Flt.neg (Flt.mul (.fin (Real.log y - μ)) (.fin (Real.log y - μ)))) (.fin (2 * σ ^ 2)) =
      .fin (-((Real.log y - μ) * (Real.log y - μ)) / (2 * σ ^ 2)) :=
    if_neg (show (2 * σ ^ 2) ≠ 0 by positivity)
  have hl : Real.log (1 / (y * σ * Real.sqrt (2 * Real.pi))) =
      -Real.log y - Real.log σ - Real.log (Real.sqrt (2 * Real.pi)) := by
    rw [Real.log_div one_ne_zero hden.ne', Real.log_one, Real.log_mul (by positivity) hq.ne',
      Real.log_mul hy.ne' hσ.ne']
    ring
  constructor
  · simp only [logNormalLogPdf]
    rw [hdev, h1, h2, Flt.log_pos (by positivity), hl]
    simp only [Flt.add, logNormalL]
    congr 1
    ring
  · refine ⟨1 / (y * σ * Real.sqrt (2 * Real.pi)) *
      Real.exp (-((Real.log y - μ) * (Real.log y - μ)) / (2 * σ ^ 2)), by positivity, ?_, ?_⟩
    · simp only [logNormalPdf]
      rw [hdev, h1, h2]
      simp only [Flt.exp, Flt.mul]
    · rw [Real.log_mul (by positivity) (Real.exp_pos _).ne', Real.log_exp, hl]
      unfold logNormalL
      ring

theorem innerBeta_pdf (y μ σ : ℝ) (hy : 0 < y) (hy1 : y < 1) (hμ : 0 < μ) (hμ1 : μ < 1) (hσ : 0 < σ)
    (hσ1 : σ < 1) :
    0 < (innerBeta μ σ).pdf y ∧ Real.log ((innerBeta μ σ).pdf y) = betaL y μ σ :=
  Frozen.beta_pdf (betaA_pos hμ hσ hσ1) (betaB_pos hμ1 hσ hσ1) hy hy1

end Dist
end Ondil
