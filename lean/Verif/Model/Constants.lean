import Mathlib.Algebra.Field.Rat
import Verif.Model.Settings
/-
Model of the physical constants, `ndsl/constants.py` 92-226. Numbers are rational: the rounding to `Float` and of each
operation is left out, so that the value of a constant is its formula.
-/
namespace NDSL.Constants
open Settings

/-- The constants chosen with the version, 92-170. -/
structure Base where
  radius : ℚ
  omega : ℚ
  grav : ℚ
  rgrav : ℚ
  rdgas : ℚ
  rvgas : ℚ
  hlv : ℚ
  hlf : ℚ
  kappa : ℚ
  cpAir : ℚ
  tfreeze : ℚ
  satAdjustThreshold : ℚ
  dzMin : ℚ
  pi : ℚ

/-- 92-117. -/
def geos : Base :=
  let pi : ℚ := 314159265358979323846 / 10 ^ 20
  let grav : ℚ := 980665 / 100000
  let rdgas : ℚ := (831447 / 100) / (28965 / 1000)
  let kappa := rdgas / ((35 / 10) * rdgas)
  { radius := 6371000, pi, omega := 2 * pi / 86164, grav, rgrav := 1 / grav, rdgas
    rvgas := (831447 / 100) / (18015 / 1000), hlv := 2466500, hlf := 333700, kappa, cpAir := rdgas / kappa
    tfreeze := 27316 / 100, satAdjustThreshold := 1 / 10 ^ 6, dzMin := 6 }

/-- 118-142. -/
def ufs : Base :=
  let grav : ℚ := 980665 / 100000
  let rdgas : ℚ := 28705 / 100
  let cpAir : ℚ := 10046 / 10
  { radius := 6371200, pi := 31415926535897931 / 10 ^ 16, omega := 72921 / 10 ^ 9, grav, rgrav := 1 / grav, rdgas
    rvgas := 4615 / 10, hlv := 2500000, hlf := 333580, cpAir, kappa := rdgas / cpAir
    tfreeze := 27315 / 100, satAdjustThreshold := 1 / 10 ^ 8, dzMin := 2 }

/-- 143-168. -/
def gfdl : Base :=
  let grav : ℚ := 980 / 100
  let rdgas : ℚ := 28704 / 100
  let kappa : ℚ := 2 / 7
  { radius := 6371000, pi := 314159265358979323846 / 10 ^ 20, omega := 7292 / 10 ^ 8, grav, rgrav := 1 / grav, rdgas
    rvgas := 4615 / 10, hlv := 2500000, hlf := 334000, kappa, cpAir := rdgas / kappa
    tfreeze := 27316 / 100, satAdjustThreshold := 1 / 10 ^ 8, dzMin := 2 }

def base : Version → Base
  | .geos => geos
  | .ufs => ufs
  | .gfdl => gfdl

/-- The constants derived from them, and those common to all versions, 172-226. -/
structure Derived where
  cvAir : ℚ
  rdg : ℚ
  k1k : ℚ
  cvVap : ℚ
  zvir : ℚ
  cIce : ℚ
  cLiq : ℚ
  cpVap : ℚ
  tice : ℚ
  dcIce : ℚ
  dcVap : ℚ
  d2ice : ℚ
  li0 : ℚ
  eps : ℚ
  epsm1 : ℚ
  lv0 : ℚ
  li00 : ℚ
  li2 : ℚ
  tWfr : ℚ
  tice0 : ℚ
  tSatMin : ℚ
  lat2 : ℚ
  ttp : ℚ

/-- 172-226. -/
def derive (b : Base) : Derived :=
  let cvAir := b.cpAir - b.rdgas
  let cIce : ℚ := 1972
  let cLiq : ℚ := 41855 / 10
  let cpVap := 4 * b.rvgas
  let tice : ℚ := 27316 / 100
  let dcIce := cLiq - cIce
  let dcVap := cpVap - cLiq
  let eps := b.rdgas / b.rvgas
  let lv0 := b.hlv - dcVap * tice
  let li00 := b.hlf - dcIce * tice
  { cvAir, rdg := -b.rdgas / b.grav, k1k := b.rdgas / cvAir, cvVap := 3 * b.rvgas, zvir := b.rvgas / b.rdgas - 1
    cIce, cLiq, cpVap, tice, dcIce, dcVap, d2ice := dcVap + dcIce, li0 := b.hlf - dcIce * tice, eps, epsm1 := eps - 1
    lv0, li00, li2 := lv0 + li00, tWfr := tice - 40, tice0 := 27315 / 100, tSatMin := tice - 160
    lat2 := (b.hlv + b.hlf) ^ 2, ttp := 27316 / 100 }

end NDSL.Constants
