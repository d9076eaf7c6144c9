/-! # What Gibbs sampling in a restricted Boltzmann machine is -/

namespace Verif.Spec

/-- The units that are on. -/
structure Layers where
  vis : Nat → Bool
  hid : Nat → Bool

/-- A bit as a number. -/
def bit (b : Bool) : Rat := if b then 1 else 0

/-- Alternate sampling with weights `W i j` between visible unit `i` and hidden unit `j`, biases `a` and `b`, and draws `dv`, `dh`: the hidden
layer, given the visible one, at odd steps and the visible layer, given the hidden one, at even steps. -/
def gibbs (nv nh : Nat) (W : Nat → Nat → Rat) (a b : Nat → Rat) (dv dh : Nat → Nat → Rat → Bool) (start : Nat → Bool) : Nat → Layers
  | 0 => ⟨start, fun _ => false⟩
  | t + 1 =>
    let s := gibbs nv nh W a b dv dh start t
    if (t + 1) % 2 = 1 then
      ⟨s.vis, fun j => dh (t + 1) j (b j + ((List.range nv).map (fun i => W i j * bit (s.vis i))).sum)⟩
    else
      ⟨fun i => dv (t + 1) i (a i + ((List.range nh).map (fun j => W i j * bit (s.hid j))).sum), s.hid⟩

end Verif.Spec
