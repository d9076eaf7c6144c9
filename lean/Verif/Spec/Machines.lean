import Verif.Model.Evolution
/-! # Calls of `evolve` on a single node -/

namespace Verif

variable {V I σ κ : Type}

/-- A call of `evolve` with the rule `rule` and the input `src` on a single node, with the default arguments as far as
they matter. -/
structure MachineCall (cfg : Config Nat Int V I σ κ) (rule : NodeCtx Nat Int V I → σ → Except Err (RuleOut Nat Int V × σ))
    (src : InputSrc Nat Int V I σ) : Prop where
  rule : cfg.rule = some rule
  input : cfg.input = src
  pert : cfg.perturbation = none
  top : cfg.topology = none
  memo : cfg.memoize = false
  persist : cfg.persistActs = true
  compression : cfg.compression = false
  labels : cfg.natLabel = id
  index : ∀ x, cfg.labelIdx x = some (x : Int)

end Verif
