import Verif.FitUtils.Model
/-
Types of the model of scans of the normalization of a test source.
-/
namespace Verif.ScanNorm

/-- The part of `FitScanCache` that a scan reads. -/
structure Cache where
  /-- `m_useReduced` -/
  useReduced : Bool
  /-- `m_firstBin` -/
  first : Nat
  /-- `m_lastBin` -/
  last : Nat
  /-- `m_data` -/
  data : List ℝ
  /-- `m_dataRed` -/
  dataRed : List ℝ
  /-- `m_weights`, with `m_useWeights` -/
  weights : Option (List ℝ)
  /-- `m_weightsRed`, with `m_useWeights` -/
  weightsRed : Option (List ℝ)
  /-- `m_currentModels`, the test source last -/
  models : List (List ℝ)
  /-- `m_currentFixed` -/
  fixed : List ℝ
  /-- `m_targetModel` -/
  target : List ℝ
  /-- `m_targetRedModel` -/
  targetRed : List ℝ
  /-- `m_currentPars` -/
  pars : List ℝ
  /-- `m_currentGrad` -/
  grad : List ℝ
  /-- `m_currentCov` -/
  cov : Nat → Nat → ℝ
  /-- `m_currentTestSourceIndex`; `none` is -1 -/
  test : Option Nat
  /-- `m_prior_bkg` -/
  prior : Option FitUtils.MVPrior
  /-- `m_tol` -/
  tol : ℝ
  /-- `m_maxIter` -/
  maxIter : Nat
  /-- `m_initLambda` -/
  lambda : ℝ

/-- What a scan gives: return code, normalizations and log likelihoods. -/
structure Scan where
  status : Int
  norms : List ℝ
  logLikes : List ℝ

/-- Upper and lower error. -/
structure Errors where
  pos : ℝ
  neg : ℝ

end Verif.ScanNorm
