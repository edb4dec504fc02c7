import Mathlib.Data.Real.Basic
import Verif.Cuts.Types
/-
Types shared by the model and the specification of the reading of events and of the choice of
response functions.
-/
namespace Verif.EvRead
open Verif.Cuts (Name Cut)

/-- A set of response functions (`irfInterface::Irfs`): the event type it is for, and the
efficiency factor, if any, as a function of energy, livetime fraction and time. -/
structure Irf where
  id : Nat
  eff : Option (ℝ → ℝ → ℝ → ℝ)

/-- The library of response functions: the sets a name stands for, and the sets themselves. -/
structure Lib where
  ids : Name → Option (List Name)
  create : Name → Irf

/-- A row of a file of events: conversion type, bits of the event type, event class. -/
structure Row where
  ra : ℝ
  dec : ℝ
  energy : ℝ
  time : ℝ
  zenith : ℝ
  conv : Nat
  type : Nat
  cls : Nat

/-- A file of events: the selections recorded in it, whether there is a column of event types, and
the rows. -/
structure File where
  cuts : List Cut
  hasTypes : Bool
  rows : List Row

/-- An event in memory. -/
structure Ev where
  ra : ℝ
  dec : ℝ
  energy : ℝ
  time : ℝ
  muZenith : ℝ
  type : Nat
  efficiency : ℝ
  cls : Nat

/-- What the package dataSubselector supplies: the selections implied by the name of response
functions, the name implied by selections, and whether the version of the reconstruction is
known. -/
structure Sub where
  setIrfs : Name → List Cut
  implied : List Cut → Name
  known : List Cut → Bool

/-- Parameters of a tool: name of the response functions, mask of event types (if the tool has
one), the selections in the file the tool looks at, and in the one it looks at if there is no
selection of an event class in the first. -/
structure Pars where
  irfs : Name
  evtype : Option Nat
  cuts : List Cut
  fallback : List Cut

end Verif.EvRead
