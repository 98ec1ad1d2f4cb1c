import Mathlib.Data.Real.Basic
import Mathlib.Algebra.Order.Floor.Ring
import Mathlib.Algebra.Order.Archimedean.Real.Basic

/-!
# Model of the progress reports

`print_throughput` and `print_head` of `time_loop.template.h`: the statistics printed to the terminal
and to the log file.  Timers are inputs; numbers are real; formatting of numbers is not modelled.
-/

namespace Ryujin
namespace Progress

noncomputable section

/-- The static `struct Data` (time_loop.template.h:1115-1123). -/
structure Data where
  cycle : ℕ := 0
  t : ℝ := 0
  cpu_time_sum : ℝ := 0
  cpu_time_avg : ℝ := 0
  cpu_time_min : ℝ := 0
  cpu_time_max : ℝ := 0
  wall_time : ℝ := 0

/-- The static variables of `print_throughput` (time_loop.template.h:1115-1125). -/
structure Static where
  previous : Data := {}
  current : Data := {}
  time_per_second_exp : ℝ := 0

/-- Difference of two `unsigned int` (32 bit). (time_loop.template.h:1152) -/
def unsignedSub (a b : ℕ) : ℕ := (a + 2 ^ 32 - b) % 2 ^ 32

/-- Conversion of a floating point number to `unsigned int` (time_loop.template.h:1243-1244):
undefined behaviour (`none`) unless the truncated value is representable.  `none` is also used for a
division by zero, which gives an infinity or a NaN. -/
def toUnsigned (num den : ℝ) : Option ℕ :=
  open Classical in
  if den = 0 then none
  else if -1 < num / den ∧ num / den < 2 ^ 32 then some ⌊num / den⌋.toNat else none

/-- The printed values of `print_throughput` (time_loop.template.h:1150-1188, 1240-1261). -/
structure Report where
  cycles_per_second : ℝ
  wall_m_dofs_per_sec : ℝ
  cpu_m_dofs_per_sec : ℝ
  cpu_time_skew : ℝ
  delta_time : ℝ
  time_per_second : ℝ
  eta : Option ℕ

/-- `TimeLoop::print_throughput` (time_loop.template.h:1106-1267).  `now` holds the arguments `cycle`
and `t` and the current values of the timer "time loop"; `threads` is the factor of lines 1167-1170
(one unless throughput per rank was requested). -/
def printThroughput (n_dofs efficiency threads t_final : ℝ) (s : Static) (now : Data)
    (final_time : Bool) : Static × Report :=
  let previous := if final_time then ({} : Data) else s.current
  let delta_cycles : ℝ := unsignedSub now.cycle previous.cycle
  let time_per_second := (now.t - previous.t) / (now.wall_time - previous.wall_time)
  let e := 0.8 * s.time_per_second_exp + 0.2 * time_per_second
  (⟨previous, now, e⟩,
    { cycles_per_second := delta_cycles / (now.wall_time - previous.wall_time)
      wall_m_dofs_per_sec :=
        delta_cycles * n_dofs / 1e6 / (now.wall_time - previous.wall_time) * efficiency
      cpu_m_dofs_per_sec :=
        delta_cycles * n_dofs / 1e6 / (now.cpu_time_sum - previous.cpu_time_sum) * efficiency * threads
      cpu_time_skew := max 0 ((now.cpu_time_max - now.cpu_time_min
        - previous.cpu_time_max + previous.cpu_time_min) / delta_cycles)
      delta_time := (now.t - previous.t) / unsignedSub now.cycle previous.cycle
      time_per_second := time_per_second
      eta := toUnsigned (max (t_final - now.t) 0) e })

/-- The estimated time as it is printed (time_loop.template.h:1246-1261): days and hours are omitted
if they are zero. -/
def printEta (eta : ℕ) : Option ℕ × Option ℕ × ℕ :=
  let days := eta / (24 * 3600)
  let eta := if 0 < days then eta % (24 * 3600) else eta
  let hours := eta / 3600
  let eta := if 0 < hours then eta % 3600 else eta
  (if 0 < days then some days else none, if 0 < hours then some hours else none, eta / 60)

/-- A padded line of `print_head` (time_loop.template.h:1289-1303): `std::max(0, 34 - size) / 2` blanks
in front and `std::max(0, 35 - size) / 2` blanks behind the text, between nine hash signs. -/
def headLine (text : List Char) : List Char :=
  List.replicate 9 '#' ++ (List.replicate ((34 - text.length) / 2) ' ' ++ text ++
    List.replicate ((35 - text.length) / 2) ' ') ++ List.replicate 9 '#'

end

end Progress
end Ryujin
