import Mathlib.Tactic.NormNum
import Mathlib.Tactic.Ring
import Mathlib.Tactic.Linarith
import Mathlib.Tactic.FieldSimp
import Mathlib.Algebra.Order.Ring.Rat
import Verif.Model.Constants
/-
C127: the physical constants of each version fit together.
-/
namespace NDSL.Constants
open Settings

/-- What every set of constants has to satisfy: the numbers are positive, gravity and its inverse belong together, and the gas
constant of dry air is the fraction `KAPPA` of its heat capacity. -/
structure Sound (b : Base) : Prop where
  grav : 0 < b.grav
  rgrav : b.rgrav * b.grav = 1
  rdgas : 0 < b.rdgas
  rvgas : b.rdgas < b.rvgas
  kappa : 0 < b.kappa ∧ b.kappa < 1
  cp : b.kappa * b.cpAir = b.rdgas
  hlv : 0 < b.hlf ∧ b.hlf < b.hlv
  radius : 0 < b.radius ∧ 0 < b.omega
  vapour : 4 * b.rvgas < 41855 / 10

/-- Every version is sound. -/
theorem C127_versions (v : Version) : Sound (base v) := by
  cases v <;> constructor <;> norm_num [base, geos, ufs, gfdl]

/-- Gravity: the hydrostatic factor is `-RDGAS` times the inverse of gravity. -/
theorem C127_gravity {b : Base} (h : Sound b) : (derive b).rdg * b.grav = - b.rdgas ∧ (derive b).rdg = - b.rdgas * b.rgrav := by
  have hg := h.grav.ne'
  have : b.rgrav = b.grav⁻¹ := eq_inv_of_mul_eq_one_left h.rgrav
  constructor
  · simp only [derive]; field_simp
  · simp only [derive]; rw [this]; field_simp

/-- Dry air: the heat capacities at constant pressure and volume differ by the gas constant, both are positive, and the exponents
of pressure and density for an adiabatic change go together. -/
theorem C127_dry_air {b : Base} (h : Sound b) :
    b.cpAir = (derive b).cvAir + b.rdgas ∧ 0 < (derive b).cvAir ∧
    (derive b).k1k * (1 - b.kappa) = b.kappa ∧ (derive b).k1k * (derive b).cvAir = b.rdgas := by
  have hk := h.kappa
  have hcp : 0 < b.cpAir := by
    have := h.rdgas; rw [← h.cp] at this
    exact (mul_pos_iff_of_pos_left hk.1).1 this
  have hcv : 0 < b.cpAir - b.rdgas := by
    rw [← h.cp]
    have : b.cpAir - b.kappa * b.cpAir = (1 - b.kappa) * b.cpAir := by ring
    rw [this]
    exact mul_pos (by linarith [hk.2]) hcp
  refine ⟨by simp only [derive]; ring, hcv, ?_, ?_⟩
  · simp only [derive]
    rw [div_mul_eq_mul_div, div_eq_iff hcv.ne', ← h.cp]
    ring
  · simp only [derive]
    exact div_mul_cancel₀ _ hcv.ne'

/-- Moist air: for every share `q` of vapour the gas constant of the mixture is that of dry air times `1 + ZVIR q`; `EPS` is the
inverse of `1 + ZVIR`; the heat capacities of vapour differ by its gas constant. -/
theorem C127_moist_air {b : Base} (h : Sound b) :
    (∀ q, (1 - q) * b.rdgas + q * b.rvgas = b.rdgas * (1 + (derive b).zvir * q)) ∧
    (derive b).eps * (1 + (derive b).zvir) = 1 ∧ 0 < (derive b).zvir ∧ (derive b).epsm1 = (derive b).eps - 1 ∧
    (derive b).cpVap = (derive b).cvVap + b.rvgas := by
  have hd := h.rdgas.ne'
  have hv : b.rvgas ≠ 0 := (lt_trans h.rdgas h.rvgas).ne'
  refine ⟨fun q => ?_, ?_, ?_, rfl, ?_⟩
  · simp only [derive]; field_simp; ring
  · simp only [derive]; field_simp; ring
  · simp only [derive]
    have : b.rvgas / b.rdgas - 1 = (b.rvgas - b.rdgas) / b.rdgas := by field_simp
    rw [this]
    exact div_pos (by linarith [h.rvgas]) h.rdgas
  · simp only [derive]; ring

/-- Latent heat of evaporation, of fusion and of sublimation at temperature `t`, as the microphysics compute them from the
coefficients. -/
def evaporation (b : Base) (t : ℚ) : ℚ := (derive b).lv0 + (derive b).dcVap * t
def fusion (b : Base) (t : ℚ) : ℚ := (derive b).li00 + (derive b).dcIce * t
def sublimation (b : Base) (t : ℚ) : ℚ := (derive b).li2 + (derive b).d2ice * t

/-- Latent heats: they have the given values at the freezing temperature `TICE`, change with temperature by the difference of the
heat capacities of the two phases, and that of sublimation is the sum of the others at every temperature. Evaporation takes less
heat the warmer it is, fusion more. -/
theorem C127_latent_heat (b : Base) (h : Sound b) :
    evaporation b (derive b).tice = b.hlv ∧ fusion b (derive b).tice = b.hlf ∧
    (∀ t t', evaporation b t' - evaporation b t = ((derive b).cpVap - (derive b).cLiq) * (t' - t)) ∧
    (∀ t t', fusion b t' - fusion b t = ((derive b).cLiq - (derive b).cIce) * (t' - t)) ∧
    (∀ t, sublimation b t = evaporation b t + fusion b t) ∧
    (∀ t t', t < t' → evaporation b t' < evaporation b t ∧ fusion b t < fusion b t') ∧
    (derive b).li0 = (derive b).li00 ∧ (derive b).lat2 = sublimation b (derive b).tice ^ 2 := by
  have hv := h.vapour
  refine ⟨?_, ?_, fun t t' => ?_, fun t t' => ?_, fun t => ?_, fun t t' ht => ⟨?_, ?_⟩, rfl, ?_⟩ <;>
    simp only [evaporation, fusion, sublimation, derive]
  · ring
  · ring
  · ring
  · ring
  · ring
  · nlinarith
  · linarith
  · ring

/-- Temperatures: all versions freeze at `TICE` but UFS, which freezes at `TICE0`. The others go down from `TICE`. -/
theorem C127_temperatures (v : Version) :
    (base v).tfreeze = (if v = .ufs then (derive (base v)).tice0 else (derive (base v)).tice) ∧
    (derive (base v)).tice = (derive (base v)).ttp ∧
    (derive (base v)).tSatMin < (derive (base v)).tWfr ∧ (derive (base v)).tWfr < (derive (base v)).tice0 ∧
    (derive (base v)).tice0 < (derive (base v)).tice := by
  cases v <;> refine ⟨?_, ?_⟩ <;> first | rfl | norm_num [base, geos, ufs, gfdl, derive]

/-- The values in the documentation are those of UFS. -/
theorem C127_documented :
    (derive (base .ufs)).lv0 = 313905782 / 100 ∧ (derive (base .ufs)).li00 = - 27105966 / 100 ∧
    (derive (base .ufs)).li2 = 286799816 / 100 := by
  norm_num [base, ufs, derive]

/-- They are not those of GEOS, and of GFDL only the first is. -/
theorem C127_documented_violated :
    (derive (base .geos)).lv0 ≠ 313905782 / 100 ∧ (derive (base .geos)).li00 ≠ - 27105966 / 100 ∧
    (derive (base .gfdl)).lv0 = 313905782 / 100 ∧ (derive (base .gfdl)).li00 ≠ - 27105966 / 100 := by
  norm_num [base, geos, gfdl, derive]

/-- With the constants of UFS the freezing temperature is not the one at which the latent heats are given: fusion at `TFREEZE` does
not take `HLF`. -/
theorem C127_freezing_violated : fusion (base .ufs) (base .ufs).tfreeze ≠ (base .ufs).hlf := by
  norm_num [base, ufs, derive, fusion]

/-- With the others it does. -/
theorem C127_freezing (v : Version) (hv : v ≠ .ufs) :
    fusion (base v) (base v).tfreeze = (base v).hlf ∧ evaporation (base v) (base v).tfreeze = (base v).hlv := by
  have ht := (C127_temperatures v).1
  rw [if_neg hv] at ht
  rw [ht]
  exact ⟨(C127_latent_heat _ (C127_versions v)).2.1, (C127_latent_heat _ (C127_versions v)).1⟩

example : Sound ufs := C127_versions .ufs
example : (derive ufs).zvir = 461.5 / 287.05 - 1 := by norm_num [ufs, derive]

end NDSL.Constants
