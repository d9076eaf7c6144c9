/-! # Model of `p_decay` (`demos/optimizing_particle_swarms/pso_dynamic_demo.py`) -/

namespace Verif

/-- `p_decay(timestep, initial_p, drop, timesteps_drop)` (`pso_dynamic_demo.py:11-12`).  Simplified: exact rationals instead of floats, and a
natural number `steps` for `timesteps_drop` (10.0 in the demo), so that the floor of the quotient is the division of natural numbers. -/
def pDecay (p drop : Rat) (steps t : Nat) : Rat := p * drop ^ ((1 + t) / steps)

end Verif
