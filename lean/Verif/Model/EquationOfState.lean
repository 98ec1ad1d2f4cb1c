import Verif.Model.AeosSystem
import Mathlib.Analysis.SpecialFunctions.Exp

/-!
# Model of `source/euler_aeos/equation_of_state*.h`

The four built-in equations of state that do not need an external library.  Every class is modelled by its
member variables, its constructor (default values) and the effect of parsing a parameter file (every parameter
added with `add_parameter` is overwritten, then the `parse_parameters_call_back` runs).  Numbers are real
numbers; `std::sqrt` of a negative argument (NaN) is `0` here, and the theorems only use it for nonnegative
arguments.  The SESAME table is modelled in `Model/Sesame`.
-/

namespace Ryujin
namespace Eos

noncomputable section

/-- Virtual interface of an equation of state (equation_of_state.h:72, 101, 136, 166) together with the
interpolation constants `b`, `pinfty`, `q` (equation_of_state.h:195-207). -/
structure Interface where
  pressure : ℝ → ℝ → ℝ
  specificInternalEnergy : ℝ → ℝ → ℝ
  temperature : ℝ → ℝ → ℝ
  speedOfSound : ℝ → ℝ → ℝ
  interpolation_b : ℝ
  interpolation_pinfty : ℝ
  interpolation_q : ℝ

/-- Default array variants of `pressure`, `specific_internal_energy`, `temperature` and `speed_of_sound`
(equation_of_state.h:83-96, 113-129, 146-160, 177-190): `std::transform` over two ranges of the same size. -/
def arrayVariant (f : ℝ → ℝ → ℝ) (xs ys : List ℝ) : List ℝ := List.zipWith f xs ys

/-- Member variables of `PolytropicGas` (equation_of_state_polytropic_gas.h:89-92). -/
structure PolytropicGas where
  gamma : ℝ
  R : ℝ
  cv : ℝ

namespace PolytropicGas

/-- Constructor (equation_of_state_polytropic_gas.h:27-43). -/
def construct : PolytropicGas :=
  let gamma := 7 / 5
  let R := 287.052874
  ⟨gamma, R, R / (gamma - 1)⟩

/-- Parsing a parameter file: "gamma" and "gas constant R" are overwritten, nothing else happens
(equation_of_state_polytropic_gas.h:31, 39-40). -/
def parse (s : PolytropicGas) (gamma R : ℝ) : PolytropicGas := { s with gamma := gamma, R := R }

/-- `pressure` (equation_of_state_polytropic_gas.h:51-54). -/
def pressure (s : PolytropicGas) (rho e : ℝ) : ℝ := (s.gamma - 1) * rho * e

/-- `specific_internal_energy` (equation_of_state_polytropic_gas.h:62-65). -/
def specificInternalEnergy (s : PolytropicGas) (rho p : ℝ) : ℝ := p / (rho * (s.gamma - 1))

/-- `temperature` (equation_of_state_polytropic_gas.h:73-76). -/
def temperature (s : PolytropicGas) (_rho e : ℝ) : ℝ := e / s.cv

/-- `speed_of_sound` (equation_of_state_polytropic_gas.h:84-87). -/
def speedOfSound (s : PolytropicGas) (_rho e : ℝ) : ℝ := Real.sqrt (s.gamma * (s.gamma - 1) * e)

/-- The object as seen through the base class; the interpolation constants keep their default values
(equation_of_state.h:45-57). -/
def interface (s : PolytropicGas) : Interface :=
  ⟨s.pressure, s.specificInternalEnergy, s.temperature, s.speedOfSound, 0, 0, 0⟩

end PolytropicGas

/-- Member variables of `NobleAbelStiffenedGas` (equation_of_state_noble_abel_stiffened_gas.h:117-124) and the
interpolation constants inherited from the base class. -/
structure NobleAbelStiffenedGas where
  gamma : ℝ
  R : ℝ
  cv : ℝ
  b : ℝ
  q : ℝ
  pinf : ℝ
  interpolation_b : ℝ
  interpolation_pinfty : ℝ
  interpolation_q : ℝ

namespace NobleAbelStiffenedGas

/-- Constructor (equation_of_state_noble_abel_stiffened_gas.h:27-63). -/
def construct : NobleAbelStiffenedGas :=
  let gamma := 7 / 5
  let R := 287.052874
  ⟨gamma, R, R / (gamma - 1), 0, 0, 0, 0, 0, 0⟩

/-- Parsing a parameter file: five parameters are overwritten, then the call back copies the interpolation
constants (equation_of_state_noble_abel_stiffened_gas.h:31, 39-40, 44-62). -/
def parse (s : NobleAbelStiffenedGas) (gamma R b q pinf : ℝ) : NobleAbelStiffenedGas :=
  let s := { s with gamma := gamma, R := R, b := b, q := q, pinf := pinf }
  { s with interpolation_b := s.b, interpolation_pinfty := s.pinf, interpolation_q := s.q }

/-- `pressure` (equation_of_state_noble_abel_stiffened_gas.h:71-75). -/
def pressure (s : NobleAbelStiffenedGas) (rho e : ℝ) : ℝ :=
  (s.gamma - 1) * rho * (e - s.q) / (1 - s.b * rho) - s.gamma * s.pinf

/-- `specific_internal_energy` (equation_of_state_noble_abel_stiffened_gas.h:84-89). -/
def specificInternalEnergy (s : NobleAbelStiffenedGas) (rho p : ℝ) : ℝ :=
  let numerator := (p + s.gamma * s.pinf) * (1 - s.b * rho)
  let denominator := rho * (s.gamma - 1)
  s.q + numerator / denominator

/-- `temperature` (equation_of_state_noble_abel_stiffened_gas.h:97-100). -/
def temperature (s : NobleAbelStiffenedGas) (rho e : ℝ) : ℝ := (e - s.q - s.pinf * (1 / rho - s.b)) / s.cv

/-- `speed_of_sound` (equation_of_state_noble_abel_stiffened_gas.h:109-115). -/
def speedOfSound (s : NobleAbelStiffenedGas) (rho e : ℝ) : ℝ :=
  let covolume := 1 - s.b * rho
  let numerator := (rho * (e - s.q) - s.pinf * covolume) / rho
  let numerator := numerator * (s.gamma * (s.gamma - 1))
  Real.sqrt numerator / covolume

/-- The object as seen through the base class. (euler_aeos/equation_of_state.h:29-190) -/
def interface (s : NobleAbelStiffenedGas) : Interface :=
  ⟨s.pressure, s.specificInternalEnergy, s.temperature, s.speedOfSound,
    s.interpolation_b, s.interpolation_pinfty, s.interpolation_q⟩

end NobleAbelStiffenedGas

/-- Member variables of `VanDerWaals` (equation_of_state_van_der_waals.h:115-121) and the interpolation constants
inherited from the base class. -/
structure VanDerWaals where
  gamma : ℝ
  a : ℝ
  b : ℝ
  R : ℝ
  cv : ℝ
  interpolation_b : ℝ
  interpolation_pinfty : ℝ

namespace VanDerWaals

/-- Constructor (equation_of_state_van_der_waals.h:27-58). -/
def construct : VanDerWaals :=
  let gamma := 7 / 5
  let R := 0.4
  ⟨gamma, 0, 0, R, R / (gamma - 1), 0, 0⟩

open Classical in
/-- Parsing a parameter file: four parameters are overwritten, then the call back sets the interpolation
constants (equation_of_state_van_der_waals.h:31, 34, 37-38, 46-47, 52-57). -/
def parse (s : VanDerWaals) (gamma a b R : ℝ) : VanDerWaals :=
  let s := { s with gamma := gamma, a := a, b := b, R := R }
  { s with
    interpolation_b := s.b
    interpolation_pinfty := if s.b > 0 then s.a / (s.b * s.b) else s.interpolation_pinfty }

/-- `pressure` (equation_of_state_van_der_waals.h:66-72). -/
def pressure (s : VanDerWaals) (rho e : ℝ) : ℝ :=
  let intermolecular := s.a * rho * rho
  let numerator := rho * e + intermolecular
  let covolume := 1 - s.b * rho
  (s.gamma - 1) * numerator / covolume - intermolecular

/-- `specific_internal_energy` (equation_of_state_van_der_waals.h:81-88). -/
def specificInternalEnergy (s : VanDerWaals) (rho p : ℝ) : ℝ :=
  let intermolecular := s.a * rho * rho
  let covolume := 1 - s.b * rho
  let numerator := (p + intermolecular) * covolume
  let denominator := rho * (s.gamma - 1)
  numerator / denominator - s.a * rho

/-- `temperature` (equation_of_state_van_der_waals.h:96-99). -/
def temperature (s : VanDerWaals) (rho e : ℝ) : ℝ := (e + s.a * rho) / s.cv

/-- `speed_of_sound` (equation_of_state_van_der_waals.h:108-113). -/
def speedOfSound (s : VanDerWaals) (rho e : ℝ) : ℝ :=
  let covolume := 1 - s.b * rho
  let numerator := s.gamma * (s.gamma - 1) * (e + s.a * rho)
  Real.sqrt (numerator / (covolume * covolume) - 2 * s.a * rho)

/-- The object as seen through the base class. (euler_aeos/equation_of_state.h:29-190) -/
def interface (s : VanDerWaals) : Interface :=
  ⟨s.pressure, s.specificInternalEnergy, s.temperature, s.speedOfSound,
    s.interpolation_b, s.interpolation_pinfty, 0⟩

end VanDerWaals

/-- Member variables of `JonesWilkinsLee` (equation_of_state_jones_wilkins_lee.h:140-148); all of them are
run-time parameters. -/
structure JonesWilkinsLee where
  capA : ℝ
  capB : ℝ
  R1 : ℝ
  R2 : ℝ
  omega : ℝ
  rho_0 : ℝ
  q_0 : ℝ
  cv : ℝ

namespace JonesWilkinsLee

/-- Constructor (equation_of_state_jones_wilkins_lee.h:30-57). -/
def construct : JonesWilkinsLee :=
  ⟨6.3207e13, -4.472e9, 11.3, 1.13, 0.8938, 1895, 0, 2487 / 1895⟩

/-- `pressure` (equation_of_state_jones_wilkins_lee.h:67-78). -/
def pressure (s : JonesWilkinsLee) (rho e : ℝ) : ℝ :=
  let ratio := rho / s.rho_0
  let first_term := s.capA * (1 - s.omega / s.R1 * ratio) * Real.exp (-s.R1 * 1 / ratio)
  let second_term := s.capB * (1 - s.omega / s.R2 * ratio) * Real.exp (-s.R2 * 1 / ratio)
  first_term + second_term + s.omega * rho * (e + s.q_0)

/-- `specific_internal_energy` (equation_of_state_jones_wilkins_lee.h:88-98). -/
def specificInternalEnergy (s : JonesWilkinsLee) (rho p : ℝ) : ℝ :=
  let ratio := rho / s.rho_0
  let first_term := s.capA * (1 - s.omega / s.R1 * ratio) * Real.exp (-s.R1 * 1 / ratio)
  let second_term := s.capB * (1 - s.omega / s.R2 * ratio) * Real.exp (-s.R2 * 1 / ratio)
  (p - first_term - second_term) / (rho * s.omega)

/-- `temperature` (equation_of_state_jones_wilkins_lee.h:107-116). -/
def temperature (s : JonesWilkinsLee) (rho e : ℝ) : ℝ :=
  let ratio := rho / s.rho_0
  let first_term := s.capA / s.R1 * Real.exp (-s.R1 * 1 / ratio)
  let second_term := s.capB / s.R2 * Real.exp (-s.R2 * 1 / ratio)
  (e + s.q_0 - 1 / s.rho_0 * (first_term + second_term)) / s.cv

/-- The argument of the square root in `speed_of_sound` (equation_of_state_jones_wilkins_lee.h:125-135). -/
def speedOfSoundRadicand (s : JonesWilkinsLee) (rho e : ℝ) : ℝ :=
  let t1 := s.omega * rho / (s.R1 * s.rho_0)
  let factor1 := s.omega * (1 - t1) * (1 + 1 / t1) - t1
  let first_term := s.capA / rho * factor1 * Real.exp (-1 / t1 / s.omega)
  let t2 := s.omega * rho / (s.R2 * s.rho_0)
  let factor2 := s.omega * (1 - t2) * (1 + 1 / t2) - t2
  let second_term := s.capB / rho * factor2 * Real.exp (-1 / t2 / s.omega)
  let third_term := s.omega * (s.omega + 1) * e
  first_term + second_term + third_term

/-- `speed_of_sound` (equation_of_state_jones_wilkins_lee.h:121-138). -/
def speedOfSound (s : JonesWilkinsLee) (rho e : ℝ) : ℝ := Real.sqrt (s.speedOfSoundRadicand rho e)

/-- The object as seen through the base class; the interpolation constants keep their default values
(equation_of_state.h:45-57). -/
def interface (s : JonesWilkinsLee) : Interface :=
  ⟨s.pressure, s.specificInternalEnergy, s.temperature, s.speedOfSound, 0, 0, 0⟩

end JonesWilkinsLee

/-- The parameters the hyperbolic system reads from the selected equation of state: `eos_interpolation_b`,
`eos_interpolation_pinfinity`, `eos_interpolation_q` (euler_aeos/hyperbolic_system.h:256-280). -/
def systemParams (eos : Interface) (p : Aeos.Params) : Aeos.Params :=
  { p with b := eos.interpolation_b, pinf := eos.interpolation_pinfty, q := eos.interpolation_q }

/-- The pressure of a conserved state as computed by the precomputation loop: `eos_pressure(rho, e)` with
`e = internal_energy(U) / rho` (euler_aeos/hyperbolic_system.h:928-931). -/
def statePressure {dim : ℕ} (eos : Interface) (U : Euler.State dim) : ℝ :=
  eos.pressure (Euler.density U) (Euler.internalEnergy U / Euler.density U)

end

end Eos
end Ryujin
