import Verif.Model.Fround

/-!
# Model of the timer, `include/virg/nexus/nx_timing.h:35-55`

Times of the clock are pairs of seconds and nanoseconds. `double` arithmetic is rounded to nearest, ties to even. Differences of
seconds and nanoseconds do not overflow.
-/

namespace Nx

/-- `struct timespec`. -/
structure TimeSpec where
  sec : Int
  nsec : Int

/-- `struct NXTimer`, `include/virg/nexus/nx_timing.h:35-39`. -/
structure Timer where
  start : TimeSpec
  stop : TimeSpec

/-- `nx_timer_measure_in_msec`, `include/virg/nexus/nx_timing.h:51-55`: the integers are converted to `double`; the second literal is
the `double` nearest to 1e-6. -/
def measureMsec (t : Timer) : Rat :=
  f64 (f64 (f64 (t.stop.sec - t.start.sec : Int) * 1000) + f64 (f64 (t.stop.nsec - t.start.nsec : Int) * f64 (1 / 1000000)))

end Nx
