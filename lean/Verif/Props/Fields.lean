import Verif.Model.Fields
import Verif.Proofs.Fields
import Verif.Proofs.FirstFail
import Verif.Props.EndToEnd
import Verif.Props.Reversible
/-! # C99, C100: finite difference schemes -/

namespace Verif
open Spec
section
variable {I σ κ : Type} [DecidableEq κ]

theorem activityBeside_left {A : Type} {n x : Nat} (hn : 0 < n) (ctx : NodeCtx Nat A Rat I) (hc : ctx.node = x) :
    activityBeside n ctx (-1) = ctx.activities.get (leftOf n x) := by
  unfold activityBeside leftOf
  rw [if_neg (by omega), hc]
  congr 1
  have : ((x : Int) + -1) % (n : Int) = (((x + n - 1) % n : Nat) : Int) := by
    rw [Int.natCast_emod, ← Int.add_emod_right]
    congr 1
    omega
  rw [this, Int.toNat_natCast]

theorem activityBeside_right {A : Type} {n x : Nat} (hn : 0 < n) (ctx : NodeCtx Nat A Rat I) (hc : ctx.node = x) :
    activityBeside n ctx 1 = ctx.activities.get (rightOf n x) := by
  unfold activityBeside rightOf
  rw [if_neg (by omega), hc]
  congr 1

/-- **Runs on the ring.**  `f` is a trajectory that the rule follows; the rule sees the values beside the node, both in the neighbourhood and in the
activities. -/
theorem ring_run {n : Nat} (hn : 3 ≤ n) {G : NodeCtx Nat Int Rat I → Except Err Rat} {cfg : Config Nat Int Rat I σ κ} {T : Nat} (hT : 1 ≤ T)
    (h : cfg.Ordinary G T) {N : Net Nat Int} (hN : cellularAutomaton n 1 true = .ok N) {init : Option (Conds Nat Rat)} {f : Nat → Nat → Rat}
    (hlen : (initDict cfg init).length = n) (h0 : ∀ x, x < n → (initDict cfg init).get? x = some (f 0 x))
    (hf : ∀ t, t + 1 < T → ∀ x, x < n → ∀ c : NodeCtx Nat Int Rat I, c = plainCtx cfg N (fun x => [leftOf n x, x, rightOf n x]) (initDict cfg init) f t x →
      c.activities.get (leftOf n x) = .ok (f t (leftOf n x)) → c.activities.get (rightOf n x) = .ok (f t (rightOf n x)) → G c = .ok (f (t + 1) x))
    (hk : cfg.memoize = true → ∀ t t' x x', t + 1 < T → t' + 1 < T → x < n → x' < n →
      f t (leftOf n x) = f t' (leftOf n x') → f t x = f t' x' → f t (rightOf n x) = f t' (rightOf n x') → f (t + 1) x = f (t' + 1) x')
    {r : Nat} {w : World Nat Int σ} (hr : w.heap[r]? = some N) {fuel : Nat} (hfu : T ≤ fuel) :
    ∃ res, evolve fuel cfg init r w = .ok res ∧ ShowsRun cfg res T n f := by
  obtain ⟨N', rs, e1, e2, e3, e4⟩ := C43_left_to_right n 1 hn (by omega)
  rw [hN] at e1
  cases e1
  refine ca_run h hT (by omega) e3 (nb := fun x => [leftOf n x, x, rightOf n x]) ?_ hlen h0 ?_ ?_ hr hfu
  · intro x hx
    refine ⟨?_, ?_⟩
    · simp only [specNbrs, e2]
      rw [e4 x hx, ringCell_three hx hn]
      rfl
    · intro y hy
      simp only [List.mem_cons, List.not_mem_nil, or_false] at hy
      rcases hy with rfl | rfl | rfl
      · exact leftOf_lt (by omega)
      · exact hx
      · exact rightOf_lt (by omega)
  · intro t ht x hx
    have hget : ∀ y, y < n → (plainActs N.labels (initDict cfg init) f t).get y = .ok (f t y) := by
      intro y hy
      rw [Dict.get_eq_ok_iff]
      exact get?_plainActs (fun z hz => h0 z (by simpa using e3.mem_iff.1 hz)) t (e3.mem_iff.2 (by simpa using hy))
    exact hf t ht x hx _ rfl (hget _ (leftOf_lt (by omega))) (hget _ (rightOf_lt (by omega)))
  · intro hm
    refine ⟨by rw [e2]; rfl, ?_⟩
    intro t t' x x' ht ht' hx hx' heq
    simp only [List.map_cons, List.map_nil, List.cons.injEq, and_true] at heq
    exact hk hm t t' x x' ht ht' hx hx' heq.1 heq.2.1 heq.2.2

/-- The call of the demos on `cellular_automaton(n)`, `n ≥ 3`, with the initial values `s`. -/
structure RingCall (cfg : Config Nat Int Rat I σ κ) (G : NodeCtx Nat Int Rat I → Except Err Rat) (n T : Nat) (s : Nat → Rat)
    (init : Option (Conds Nat Rat)) (r : Nat) (w : World Nat Int σ) : Prop where
  size : 3 ≤ n
  steps : 1 ≤ T
  call : cfg.Ordinary G T
  net : ∃ N, cellularAutomaton n 1 true = .ok N ∧ w.heap[r]? = some N
  length : (initDict cfg init).length = n
  start : ∀ x, x < n → (initDict cfg init).get? x = some (s x)

theorem ring_scheme {cfg : Config Nat Int Rat I σ κ} {G : NodeCtx Nat Int Rat I → Except Err Rat} {n T : Nat} {s : Nat → Rat}
    {init : Option (Conds Nat Rat)} {r : Nat} {w : World Nat Int σ} (h : RingCall cfg G n T s init r w) {φ : Rat → Rat → Rat → Rat}
    (hG : ∀ (c : NodeCtx Nat Int Rat I) x a b, c.node = x → c.neighbourActs = [a, c.current, b] → c.activities.get (leftOf n x) = .ok a →
      c.activities.get (rightOf n x) = .ok b → G c = .ok (φ a c.current b)) {fuel : Nat} (hf : T ≤ fuel) :
    ∃ res, evolve fuel cfg init r w = .ok res ∧ ShowsRun cfg res T n (ringField n φ s) := by
  obtain ⟨N, hN, hr⟩ := h.net
  refine ring_run h.size h.steps h.call hN h.length (f := ringField n φ s) h.start ?_ ?_ hr hf
  · intro t _ x _ c hc hl hr'
    subst hc
    exact hG _ x _ _ rfl rfl hl hr'
  · intro _ t t' x x' _ _ _ _ q1 q2 q3
    simp only [ringField, q1, q2, q3]

/-- A rule that raises at every node of a ring. -/
theorem ring_fail {cfg : Config Nat Int Rat I σ κ} {G : NodeCtx Nat Int Rat I → Except Err Rat} {n T : Nat} {s : Nat → Rat}
    {init : Option (Conds Nat Rat)} {r : Nat} {w : World Nat Int σ} (h : RingCall cfg G n T s init r w) (hT : 2 ≤ T) {e : Err}
    (hG : ∀ (N : Net Nat Int) (c : NodeCtx Nat Int Rat I) x a b, x < n → c = plainCtx cfg N (fun x => [leftOf n x, x, rightOf n x]) (initDict cfg init)
      (fun _ => s) 0 x → c.activities.get (leftOf n x) = .ok a → c.activities.get (rightOf n x) = .ok b → G c = .error e) {fuel : Nat} (hf : 1 ≤ fuel) :
    evolve fuel cfg init r w = .error e := by
  obtain ⟨N, hN, hr⟩ := h.net
  have hn := h.size
  obtain ⟨N', rs, e1, e2, e3, e4⟩ := C43_left_to_right n 1 hn (by omega)
  have hNN : N' = N := by rw [hN] at e1; exact (Except.ok.inj e1).symm
  subst hNN
  have hmem : ∀ x, x ∈ N'.labels ↔ x < n := fun x => by rw [e3.mem_iff, List.mem_range]
  cases hlab : N'.labels with
  | nil =>
    have := (hmem 0).2 (by omega)
    rw [hlab] at this
    cases this
  | cons x rest =>
    have hx : x < n := (hmem x).1 (by rw [hlab]; simp)
    refine first_fail h.call hT (e3.nodup_iff.2 List.nodup_range) (nb := fun x => [leftOf n x, x, rightOf n x]) (f := fun _ => s) ?_ ?_
      (fun y hy => h.start y ((hmem y).1 hy)) hlab (hG N' _ x (s (leftOf n x)) (s (rightOf n x)) hx rfl ?_ ?_) hr hf
    · intro x hx
      have hx := (hmem x).1 hx
      refine ⟨?_, ?_⟩
      · simp only [specNbrs, e2]
        rw [e4 x hx, ringCell_three hx hn]
        rfl
      · intro y hy
        rw [hmem]
        simp only [List.mem_cons, List.not_mem_nil, or_false] at hy
        rcases hy with rfl | rfl | rfl
        · exact leftOf_lt (by omega)
        · exact hx
        · exact rightOf_lt (by omega)
    · rw [h.length]
      have := e3.length_eq
      simp [Net.labels, Dict.keys, Net.size] at this ⊢
      omega
    · exact Dict.get_eq_ok_iff.2 (h.start _ (leftOf_lt (by omega)))
    · exact Dict.get_eq_ok_iff.2 (h.start _ (rightOf_lt (by omega)))

/-! ## C99: runs -/

/-- C99: linear convection. -/
theorem C99_linear_convection {cfg : Config Nat Int Rat I σ κ} {n T : Nat} {k dt dx : Rat} {s : Nat → Rat} {init : Option (Conds Nat Rat)}
    {r : Nat} {w : World Nat Int σ} (hdx : dx ≠ 0) (h : RingCall cfg (linearConvectionRule n k dt dx) n T s init r w) {fuel : Nat} (hf : T ≤ fuel) :
    ∃ res, evolve fuel cfg init r w = .ok res ∧ ShowsRun cfg res T n (ringField n (convect (k * dt / dx)) s) := by
  have hn := h.size
  refine ring_scheme h ?_ hf
  intro c x a b h1 _ h3 _
  unfold linearConvectionRule
  rw [activityBeside_left (by omega) c h1, h3]
  simp only [if_neg hdx, convect]

/-- C99: nonlinear convection. -/
theorem C99_nonlinear_convection {cfg : Config Nat Int Rat I σ κ} {n T : Nat} {dt dx : Rat} {s : Nat → Rat} {init : Option (Conds Nat Rat)}
    {r : Nat} {w : World Nat Int σ} (hdx : dx ≠ 0) (h : RingCall cfg (nonlinearConvectionRule n dt dx) n T s init r w) {fuel : Nat} (hf : T ≤ fuel) :
    ∃ res, evolve fuel cfg init r w = .ok res ∧ ShowsRun cfg res T n (ringField n (convectSelf (dt / dx)) s) := by
  have hn := h.size
  refine ring_scheme h ?_ hf
  intro c x a b h1 _ h3 _
  unfold nonlinearConvectionRule
  rw [activityBeside_left (by omega) c h1, h3]
  simp only [if_neg hdx, convectSelf]
  congr 1
  grind

/-- C99: diffusion. -/
theorem C99_diffusion {cfg : Config Nat Int Rat I σ κ} {n T : Nat} {nu dt dx : Rat} {s : Nat → Rat} {init : Option (Conds Nat Rat)}
    {r : Nat} {w : World Nat Int σ} (hdx : dx ≠ 0) (h : RingCall cfg (diffusionRule n nu dt dx) n T s init r w) {fuel : Nat} (hf : T ≤ fuel) :
    ∃ res, evolve fuel cfg init r w = .ok res ∧ ShowsRun cfg res T n (ringField n (diffuse (nu * dt / dx ^ 2)) s) := by
  have hn := h.size
  refine ring_scheme h ?_ hf
  intro c x a b h1 _ h3 h4
  unfold diffusionRule
  rw [activityBeside_left (by omega) c h1, activityBeside_right (by omega) c h1, h3, h4]
  simp only [if_neg hdx, diffuse]

/-- C99: Burgers' equation. -/
theorem C99_burgers {cfg : Config Nat Int Rat I σ κ} {n T : Nat} {nu dt dx : Rat} {s : Nat → Rat} {init : Option (Conds Nat Rat)}
    {r : Nat} {w : World Nat Int σ} (hdx : dx ≠ 0) (h : RingCall cfg (burgersRule n nu dt dx) n T s init r w) {fuel : Nat} (hf : T ≤ fuel) :
    ∃ res, evolve fuel cfg init r w = .ok res ∧ ShowsRun cfg res T n (ringField n (burgers (dt / dx) (nu * dt / dx ^ 2)) s) := by
  have hn := h.size
  refine ring_scheme h ?_ hf
  intro c x a b h1 _ h3 h4
  unfold burgersRule
  rw [activityBeside_left (by omega) c h1, activityBeside_right (by omega) c h1, h3, h4]
  simp only [if_neg hdx, burgers]
  congr 1
  grind

/-- C99: simple diffusion, which takes the values from the neighbourhood: the same scheme. -/
theorem C99_simple_diffusion {cfg : Config Nat Int Rat I σ κ} {n T : Nat} {F : Rat} {s : Nat → Rat} {init : Option (Conds Nat Rat)}
    {r : Nat} {w : World Nat Int σ} (h : RingCall cfg (simpleDiffusionRule F) n T s init r w) {fuel : Nat} (hf : T ≤ fuel) :
    ∃ res, evolve fuel cfg init r w = .ok res ∧ ShowsRun cfg res T n (ringField n (diffuse F) s) := by
  refine ring_scheme h ?_ hf
  intro c x a b _ h2 _ _
  unfold simpleDiffusionRule
  rw [h2]
  rfl

/-- C99, error branch: with `dx = 0` each of the rules raises `ZeroDivisionError` at the first timestep. -/
theorem C99_zero_division {cfg : Config Nat Int Rat I σ κ} {n T : Nat} {k nu dt : Rat} {s : Nat → Rat} {init : Option (Conds Nat Rat)}
    {r : Nat} {w : World Nat Int σ} {G : NodeCtx Nat Int Rat I → Except Err Rat}
    (hG : G = linearConvectionRule n k dt 0 ∨ G = nonlinearConvectionRule n dt 0 ∨ G = diffusionRule n nu dt 0 ∨ G = burgersRule n nu dt 0)
    (h : RingCall cfg G n T s init r w) (hT : 2 ≤ T) {fuel : Nat} (hf : 1 ≤ fuel) : evolve fuel cfg init r w = .error .zeroDivision := by
  have hn := h.size
  refine ring_fail h hT ?_ hf
  intro N c x a b hx hc hl hr
  have h1 : c.node = x := by rw [hc]; rfl
  rcases hG with rfl | rfl | rfl | rfl
  · unfold linearConvectionRule
    rw [activityBeside_left (by omega) c h1, hl]
    simp
  · unfold nonlinearConvectionRule
    rw [activityBeside_left (by omega) c h1, hl]
    simp
  · unfold diffusionRule
    rw [activityBeside_left (by omega) c h1, activityBeside_right (by omega) c h1, hl, hr]
    simp
  · unfold burgersRule
    rw [activityBeside_left (by omega) c h1, activityBeside_right (by omega) c h1, hl, hr]
    simp

end

/-! ## C99: laws of the schemes -/

/-- C99: convection at constant speed and diffusion keep the total. -/
theorem C99_conserved (n : Nat) (c b : Rat) (s : Nat → Rat) (t : Nat) :
    ringTotal n (ringField n (convect c) s t) = ringTotal n s ∧ ringTotal n (ringField n (diffuse b) s t) = ringTotal n s := by
  constructor
  · induction t with
    | zero => rfl
    | succ t ih =>
      rw [← ih]
      have : ringTotal n (ringField n (convect c) s (t + 1)) = ringTotal n (fun x => ringField n (convect c) s t x -
          c * (ringField n (convect c) s t x - ringField n (convect c) s t (leftOf n x))) := rfl
      rw [this, ringTotal_sub, ringTotal_mul, ringTotal_sub, ringTotal_left]
      grind
  · induction t with
    | zero => rfl
    | succ t ih =>
      rw [← ih]
      have : ringTotal n (ringField n (diffuse b) s (t + 1)) = ringTotal n (fun x => ringField n (diffuse b) s t x +
          b * (ringField n (diffuse b) s t (rightOf n x) - 2 * ringField n (diffuse b) s t x + ringField n (diffuse b) s t (leftOf n x))) := rfl
      rw [this, ringTotal_add, ringTotal_mul, ringTotal_laplace]
      grind

/-- Bounds that one step keeps. -/
theorem ringField_bounds {n : Nat} (hn : 0 < n) {φ : Rat → Rat → Rat → Rat} {s : Nat → Rat} {lo hi : Rat}
    (hφ : ∀ l m r, lo ≤ l → l ≤ hi → lo ≤ m → m ≤ hi → lo ≤ r → r ≤ hi → lo ≤ φ l m r ∧ φ l m r ≤ hi)
    (hs : ∀ x, x < n → lo ≤ s x ∧ s x ≤ hi) : ∀ t x, x < n → lo ≤ ringField n φ s t x ∧ ringField n φ s t x ≤ hi := by
  intro t
  induction t with
  | zero => exact hs
  | succ t ih =>
    intro x hx
    obtain ⟨a1, a2⟩ := ih _ (leftOf_lt (n := n) (x := x) hn)
    obtain ⟨b1, b2⟩ := ih x hx
    obtain ⟨c1, c2⟩ := ih _ (rightOf_lt (n := n) (x := x) hn)
    exact hφ _ _ _ a1 a2 b1 b2 c1 c2

/-- C99, maximum principle: with Courant number between 0 and 1 convection stays within the bounds of the initial values. -/
theorem C99_convection_bounds {n : Nat} (hn : 0 < n) {c lo hi : Rat} (h0 : 0 ≤ c) (h1 : c ≤ 1) {s : Nat → Rat}
    (hs : ∀ x, x < n → lo ≤ s x ∧ s x ≤ hi) (t x : Nat) (hx : x < n) :
    lo ≤ ringField n (convect c) s t x ∧ ringField n (convect c) s t x ≤ hi := by
  refine ringField_bounds hn ?_ hs t x hx
  intro l m r a1 a2 b1 b2 _ _
  unfold convect
  have k1 := Rat.mul_nonneg h0 (show 0 ≤ l - lo by grind)
  have k2 := Rat.mul_nonneg (show 0 ≤ 1 - c by grind) (show 0 ≤ m - lo by grind)
  have k3 := Rat.mul_nonneg h0 (show 0 ≤ hi - l by grind)
  have k4 := Rat.mul_nonneg (show 0 ≤ 1 - c by grind) (show 0 ≤ hi - m by grind)
  constructor <;> grind

/-- C99, maximum principle for diffusion with `0 ≤ ν dt / dx² ≤ 1/2`. -/
theorem C99_diffusion_bounds {n : Nat} (hn : 0 < n) {b lo hi : Rat} (h0 : 0 ≤ b) (h1 : 2 * b ≤ 1) {s : Nat → Rat}
    (hs : ∀ x, x < n → lo ≤ s x ∧ s x ≤ hi) (t x : Nat) (hx : x < n) :
    lo ≤ ringField n (diffuse b) s t x ∧ ringField n (diffuse b) s t x ≤ hi := by
  refine ringField_bounds hn ?_ hs t x hx
  intro l m r a1 a2 b1 b2 c1 c2
  unfold diffuse
  have k1 := Rat.mul_nonneg h0 (show 0 ≤ l - lo by grind)
  have k2 := Rat.mul_nonneg (show 0 ≤ 1 - 2 * b by grind) (show 0 ≤ m - lo by grind)
  have k3 := Rat.mul_nonneg h0 (show 0 ≤ r - lo by grind)
  have k4 := Rat.mul_nonneg h0 (show 0 ≤ hi - l by grind)
  have k5 := Rat.mul_nonneg (show 0 ≤ 1 - 2 * b by grind) (show 0 ≤ hi - m by grind)
  have k6 := Rat.mul_nonneg h0 (show 0 ≤ hi - r by grind)
  constructor <;> grind

/-- C99, maximum principle for Burgers' equation: values between `lo ≥ 0` and `hi` stay there if `hi dt / dx + 2 ν dt / dx² ≤ 1`.  Without viscosity
this is nonlinear convection. -/
theorem C99_burgers_bounds {n : Nat} (hn : 0 < n) {c b lo hi : Rat} (hc : 0 ≤ c) (hb : 0 ≤ b) (hlo : 0 ≤ lo) (h1 : c * hi + 2 * b ≤ 1) {s : Nat → Rat}
    (hs : ∀ x, x < n → lo ≤ s x ∧ s x ≤ hi) (t x : Nat) (hx : x < n) :
    lo ≤ ringField n (burgers c b) s t x ∧ ringField n (burgers c b) s t x ≤ hi := by
  refine ringField_bounds hn ?_ hs t x hx
  intro l m r a1 a2 b1 b2 c1 c2
  unfold burgers
  have hm : 0 ≤ c * m := Rat.mul_nonneg hc (by grind)
  have hm' : c * m ≤ c * hi := by
    have := Rat.mul_nonneg hc (show 0 ≤ hi - m by grind)
    grind
  have k1 := Rat.mul_nonneg hb (show 0 ≤ r - lo by grind)
  have k2 := Rat.mul_nonneg (show 0 ≤ c * m + b by grind) (show 0 ≤ l - lo by grind)
  have k3 := Rat.mul_nonneg (show 0 ≤ 1 - c * m - 2 * b by grind) (show 0 ≤ m - lo by grind)
  have k4 := Rat.mul_nonneg hb (show 0 ≤ hi - r by grind)
  have k5 := Rat.mul_nonneg (show 0 ≤ c * m + b by grind) (show 0 ≤ hi - l by grind)
  have k6 := Rat.mul_nonneg (show 0 ≤ 1 - c * m - 2 * b by grind) (show 0 ≤ hi - m by grind)
  constructor <;> grind

/-- C99: without viscosity Burgers' equation is nonlinear convection. -/
theorem C99_inviscid (n : Nat) (c : Rat) (s : Nat → Rat) (t x : Nat) : ringField n (burgers c 0) s t x = ringField n (convectSelf c) s t x := by
  induction t generalizing x with
  | zero => rfl
  | succ t ih =>
    simp only [ringField, ih, burgers, convectSelf]
    grind

/-- C99: with Courant number 1 convection moves all values one cell to the right per timestep. -/
theorem C99_shift {n : Nat} (s : Nat → Rat) (t x : Nat) (hx : x < n) : ringField n (convect 1) s t ((x + t) % n) = s x := by
  induction t with
  | zero => rw [Nat.add_zero, Nat.mod_eq_of_lt hx]; rfl
  | succ t ih =>
    have : leftOf n ((x + (t + 1)) % n) = (x + t) % n := by
      rw [← leftOf_rightOf (n := n) (x := (x + t) % n) (Nat.mod_lt _ (by omega))]
      unfold rightOf
      rw [Nat.mod_add_mod]
      rfl
    simp only [ringField, convect]
    rw [this, ih]
    grind

/-! ## C100: the wave equation -/

section
variable {I σ κ : Type} [DecidableEq κ]

/-- C100.  The call of the demo, with the past conditions `p`, shows the scheme of the wave equation. -/
theorem C100_run {cfg : Config Nat Int Rat I σ κ} {n T : Nat} {dt dx : Rat} {s p : Nat → Rat} {init : Option (Conds Nat Rat)}
    {r : Nat} {w : World Nat Int σ} (hdx : dx ≠ 0) (h : RingCall cfg (waveRule n dt dx) n T s init r w) (hm : cfg.memoize = false)
    {P : Conds Nat Rat} (hP : cfg.past.getLast? = some P) (hp : ∀ x, x < n → (P.toDict cfg.natLabel).get? x = some (p x)) {fuel : Nat} (hf : T ≤ fuel) :
    ∃ res, evolve fuel cfg init r w = .ok res ∧ ShowsRun cfg res T n (waveField n (dt ^ 2 / dx ^ 2) s p) := by
  have hn := h.size
  obtain ⟨N, hN, hr⟩ := h.net
  obtain ⟨N', rs, e1, e2, e3, e4⟩ := C43_left_to_right n 1 hn (by omega)
  have hNN : N' = N := by rw [hN] at e1; exact (Except.ok.inj e1).symm
  subst hNN
  refine ring_run h.size h.steps h.call hN h.length (f := waveField n (dt ^ 2 / dx ^ 2) s p) h.start ?_ (by rw [hm]; intro q; cases q) hr hf
  intro t _ x hx c hc hl hr'
  have hd : initDict cfg init ≠ [] := by
    intro hnil
    have := h.length
    rw [hnil] at this
    simp at this
    omega
  have hne : N'.labels ≠ [] := by
    intro hnil
    have := e3.length_eq
    rw [hnil] at this
    simp at this
    omega
  have hpast := past_last h.call.persist h.call.compression hP hne hd (f := waveField n (dt ^ 2 / dx ^ 2) s p)
    (nb := fun x => [leftOf n x, x, rightOf n x]) t x x
  have hpv : pastActivityOf c c.node = .ok (if t = 0 then p x else waveField n (dt ^ 2 / dx ^ 2) s p (t - 1) x) := by
    subst hc
    show pastActivityOf _ x = _
    rw [hpast]
    cases t with
    | zero =>
      simp only [if_true]
      rw [Dict.get_eq_ok_iff]
      exact hp x hx
    | succ t =>
      rw [if_neg (by omega), if_neg (by omega), Dict.get_eq_ok_iff]
      exact get?_plainActs (fun z hz => h.start z (by simpa using e3.mem_iff.1 hz)) t (e3.mem_iff.2 (by simpa using hx))
  unfold waveRule
  rw [activityBeside_left (by omega) c (show c.node = x by rw [hc]; rfl), activityBeside_right (by omega) c (show c.node = x by rw [hc]; rfl), hl, hr', hpv]
  have hcur : c.current = waveField n (dt ^ 2 / dx ^ 2) s p t x := by rw [hc]; rfl
  simp only [if_neg hdx, hcur]
  cases t with
  | zero =>
    simp only [waveField, if_true]
    congr 1
    grind
  | succ t =>
    rw [if_neg (by omega)]
    simp only [waveField, Nat.add_sub_cancel]
    congr 1
    grind

/-- C100, error branch: without past conditions the call raises `TypeError` at the first timestep. -/
theorem C100_no_past {cfg : Config Nat Int Rat I σ κ} {n T : Nat} {dt dx : Rat} {s : Nat → Rat} {init : Option (Conds Nat Rat)}
    {r : Nat} {w : World Nat Int σ} (h : RingCall cfg (waveRule n dt dx) n T s init r w) (hp : cfg.past = []) (hT : 2 ≤ T)
    {fuel : Nat} (hf : 1 ≤ fuel) : evolve fuel cfg init r w = .error .typeError := by
  have hn := h.size
  refine ring_fail h hT ?_ hf
  intro N c x a b hx hc hl hr
  have h1 : c.node = x := by rw [hc]; rfl
  unfold waveRule
  rw [activityBeside_left (by omega) c h1, activityBeside_right (by omega) c h1, hl, hr]
  have : pastActivityOf c c.node = .error .typeError := by
    subst hc
    unfold pastActivityOf
    simp [plainCtx, runCtx, specPast, hp]
  simp only [this]

end

/-- Every value follows from the two states before. -/
theorem waveField_next (n : Nat) (c : Rat) (s p : Nat → Rat) (t x : Nat) :
    waveField n c s p (t + 2) x = c * (waveField n c s p (t + 1) (rightOf n x) - 2 * waveField n c s p (t + 1) x +
      waveField n c s p (t + 1) (leftOf n x)) + 2 * waveField n c s p (t + 1) x - waveField n c s p t x := rfl

/-- C100: the energy of two successive states is the same at all times, that of the past and the initial conditions. -/
theorem C100_energy (n : Nat) (c : Rat) (s p : Nat → Rat) (t : Nat) :
    waveEnergy n c (waveField n c s p t) (waveField n c s p (t + 1)) = waveEnergy n c p s := by
  induction t with
  | zero => exact wave_energy_step (fun x _ => rfl)
  | succ t ih => rw [← ih]; exact wave_energy_step (fun x _ => rfl)

/-- C100: started at rest (past and initial conditions equal), as in the demo, the total stays the same. -/
theorem C100_total (n : Nat) (c : Rat) (s : Nat → Rat) (t : Nat) : ringTotal n (waveField n c s s t) = ringTotal n s := by
  have key : ∀ t, ringTotal n (waveField n c s s t) = ringTotal n s ∧ ringTotal n (waveField n c s s (t + 1)) = ringTotal n s := by
    intro t
    induction t with
    | zero =>
      refine ⟨rfl, ?_⟩
      have : ringTotal n (waveField n c s s (0 + 1)) =
          ringTotal n (fun x => c * (s (rightOf n x) - 2 * s x + s (leftOf n x)) + 2 * s x - s x) := rfl
      rw [this, ringTotal_sub, ringTotal_add, ringTotal_mul, ringTotal_laplace, ringTotal_mul]
      grind
    | succ t ih =>
      refine ⟨ih.2, ?_⟩
      have : ringTotal n (waveField n c s s (t + 1 + 1)) =
          ringTotal n (fun x => c * (waveField n c s s (t + 1) (rightOf n x) - 2 * waveField n c s s (t + 1) x + waveField n c s s (t + 1) (leftOf n x)) +
            2 * waveField n c s s (t + 1) x - waveField n c s s t x) := rfl
      rw [this, ringTotal_sub, ringTotal_add, ringTotal_mul, ringTotal_laplace, ringTotal_mul, ih.1, ih.2]
      grind
  exact (key t).1

/-- C100: the wave equation runs backwards: from state `T` with state `T + 1` as past conditions, state `t` is state `T - t`. -/
theorem C100_reverse {n : Nat} (c : Rat) (s p : Nat → Rat) (T t x : Nat) (ht : t ≤ T) (hx : x < n) :
    waveField n c (waveField n c s p T) (waveField n c s p (T + 1)) t x = waveField n c s p (T - t) x := by
  have key : ∀ t, (t ≤ T → ∀ x, x < n → waveField n c (waveField n c s p T) (waveField n c s p (T + 1)) t x = waveField n c s p (T - t) x) ∧
      (t + 1 ≤ T → ∀ x, x < n → waveField n c (waveField n c s p T) (waveField n c s p (T + 1)) (t + 1) x = waveField n c s p (T - (t + 1)) x) := by
    intro t
    induction t with
    | zero =>
      refine ⟨fun _ _ _ => rfl, ?_⟩
      intro h x hx
      obtain ⟨T, rfl⟩ : ∃ T', T = T' + 1 := ⟨T - 1, by omega⟩
      have := waveField_next n c s p T x
      rw [show T + 1 - (0 + 1) = T by omega]
      simp only [waveField]
      grind
    | succ t ih =>
      refine ⟨ih.2, ?_⟩
      intro h x hx
      have hn : 0 < n := by omega
      obtain ⟨k, hk⟩ : ∃ k, T = t + 2 + k := ⟨T - (t + 2), by omega⟩
      rw [waveField_next, ih.2 (by omega) x hx, ih.2 (by omega) _ (rightOf_lt hn), ih.2 (by omega) _ (leftOf_lt hn), ih.1 (by omega) x hx]
      have := waveField_next n c s p k x
      rw [show T - (t + 1) = k + 1 by omega, show T - t = k + 2 by omega, show T - (t + 1 + 1) = k by omega]
      grind
  exact (key t).1 ht x hx

section
variable {I σ κ : Type} [DecidableEq κ]

/-- C100: the call with state `T` as initial and state `T + 1` as past conditions shows the first run backwards. -/
theorem C100_run_back {cfg : Config Nat Int Rat I σ κ} {n T : Nat} {dt dx : Rat} {s p : Nat → Rat} {init : Option (Conds Nat Rat)}
    {r : Nat} {w : World Nat Int σ} (hdx : dx ≠ 0) (h : RingCall cfg (waveRule n dt dx) n (T + 1) (waveField n (dt ^ 2 / dx ^ 2) s p T) init r w)
    (hm : cfg.memoize = false) {P : Conds Nat Rat} (hP : cfg.past.getLast? = some P)
    (hp : ∀ x, x < n → (P.toDict cfg.natLabel).get? x = some (waveField n (dt ^ 2 / dx ^ 2) s p (T + 1) x)) {fuel : Nat} (hf : T + 1 ≤ fuel) :
    ∃ res, evolve fuel cfg init r w = .ok res ∧ ShowsRun cfg res (T + 1) n (fun t => waveField n (dt ^ 2 / dx ^ 2) s p (T - t)) := by
  obtain ⟨res, e1, e2⟩ := C100_run hdx h hm hP hp hf
  refine ⟨res, e1, e2.1, ?_⟩
  intro t ht
  obtain ⟨a, a1, a2, a3⟩ := e2.2 t ht
  exact ⟨a, a1, a2, fun x hx => by rw [a3 x hx, C100_reverse _ _ _ _ _ _ (by omega) hx]⟩

end

/-! ## The demos -/

/-- The initial conditions of the convection and diffusion demos: `[1.] * 10 + [2.] * 11 + [1.] * 20`. -/
def hatStart (x : Nat) : Rat := if 10 ≤ x ∧ x < 21 then 2 else 1

theorem hatStart_bounds (x : Nat) : 1 ≤ hatStart x ∧ hatStart x ≤ 2 := by
  unfold hatStart
  split <;> grind

/-- C99, the demos: with `nx = 41`, `dx = 2/40`, `dt = 1/40`, `k = 1` (convection) and `dt = 0.2 dx² / ν` (diffusion) all values of all states are
between 1 and 2. -/
theorem C99_demos (nu : Rat) (hnu : nu ≠ 0) (t x : Nat) (hx : x < 41) :
    (1 ≤ ringField 41 (convect (1 * (1 / 40) / (2 / 40))) hatStart t x ∧ ringField 41 (convect (1 * (1 / 40) / (2 / 40))) hatStart t x ≤ 2) ∧
    (1 ≤ ringField 41 (convectSelf ((1 / 40) / (2 / 40))) hatStart t x ∧ ringField 41 (convectSelf ((1 / 40) / (2 / 40))) hatStart t x ≤ 2) ∧
    (1 ≤ ringField 41 (diffuse (nu * ((2 / 10) * (2 / 40) ^ 2 / nu) / (2 / 40) ^ 2)) hatStart t x ∧
      ringField 41 (diffuse (nu * ((2 / 10) * (2 / 40) ^ 2 / nu) / (2 / 40) ^ 2)) hatStart t x ≤ 2) := by
  refine ⟨C99_convection_bounds (by omega) (by decide +kernel) (by decide +kernel) (fun x _ => hatStart_bounds x) t x hx, ?_,
    C99_diffusion_bounds (by omega) ?_ ?_ (fun x _ => hatStart_bounds x) t x hx⟩
  · have := C99_burgers_bounds (n := 41) (by omega) (c := (1 / 40) / (2 / 40)) (b := 0) (lo := 1) (hi := 2) (by decide +kernel) (by decide +kernel)
      (by decide +kernel) (by decide +kernel) (fun x _ => hatStart_bounds x) t x hx
    rwa [C99_inviscid] at this
  · grind
  · grind

namespace Ex
/-- A call with rational activities on `cellular_automaton(n)`. -/
def ratBase : Config Nat Int Rat Int Unit Unit :=
  { rule := none, input := .timesteps 1, topology := none, perturbation := none, past := [], order := .activitiesFirst, copyNetwork := true,
    compression := false, persistActs := true, persistNet := true, memoize := false, key := none, natLabel := id,
    labelIdx := fun x => some (x : Int), actAttr := fun _ => 0, labelCodec := natCodec, attrCodec := intCodec,
    valCodec := ⟨fun _ => .ok (), fun x => x⟩ }

/-- The network of a call on the ring, or the empty network. -/
def ringNet (n : Nat) : Net Nat Int := match cellularAutomaton n 1 true with
  | .ok N => N
  | .error _ => Net.empty

theorem ringCall {G : NodeCtx Nat Int Rat Int → Except Err Rat} (n T : Nat) (hn : 3 ≤ n) (hT : 1 ≤ T) (vs : List Rat) (hl : vs.length = n) (m : Bool)
    (past : List (Conds Nat Rat)) :
    RingCall { ratBase with rule := some (pureRule G), input := .timesteps T, memoize := m, past := past } G n T (fun x => vs.getD x 0)
      (some (.list vs)) 0 ⟨[ringNet n], ()⟩ := by
  obtain ⟨N, _, hN, _⟩ := C43_left_to_right n 1 hn (by omega)
  have h := initDict_list (cfg := { ratBase with rule := some (pureRule G), input := .timesteps T, memoize := m, past := past }) rfl vs
  refine ⟨hn, hT, ⟨rfl, rfl, rfl, rfl, rfl, rfl, rfl⟩, ⟨N, hN, by simp [ringNet, hN]⟩, by rw [h.1, hl], ?_⟩
  intro x hx
  rw [h.2.2 x (by omega), List.getD_eq_getElem?_getD, List.getElem?_eq_getElem (by omega)]
  rfl
end Ex

/-- Each rule on a ring of five cells, memoized; the wave equation without memoization, started at rest. -/
example : (∃ res, evolve 4 { Ex.ratBase with rule := some (pureRule (linearConvectionRule 5 1 (1 / 2) 1)), input := .timesteps 4, memoize := true, past := [] }
      (some (.list [0, 1, 0, 0, 2])) 0 ⟨[Ex.ringNet 5], ()⟩ = .ok res ∧
      ShowsRun { Ex.ratBase with rule := some (pureRule (linearConvectionRule 5 1 (1 / 2) 1)), input := .timesteps 4, memoize := true, past := [] } res 4 5
        (ringField 5 (convect (1 * (1 / 2) / 1)) (fun x => [0, 1, 0, 0, 2].getD x 0))) ∧
    (∃ res, evolve 4 { Ex.ratBase with rule := some (pureRule (waveRule 5 (1 / 2) 1)), input := .timesteps 4, memoize := false, past := [.list [0, 1, 0, 0, 2]] }
      (some (.list [0, 1, 0, 0, 2])) 0 ⟨[Ex.ringNet 5], ()⟩ = .ok res ∧
      ShowsRun { Ex.ratBase with rule := some (pureRule (waveRule 5 (1 / 2) 1)), input := .timesteps 4, memoize := false, past := [.list [0, 1, 0, 0, 2]] } res 4 5
        (waveField 5 ((1 / 2) ^ 2 / 1 ^ 2) (fun x => [0, 1, 0, 0, 2].getD x 0) (fun x => [0, 1, 0, 0, 2].getD x 0))) := by
  refine ⟨C99_linear_convection (by decide) (Ex.ringCall 5 4 (by omega) (by omega) _ rfl true []) (by omega),
    C100_run (by decide) (Ex.ringCall 5 4 (by omega) (by omega) _ rfl false _) rfl rfl ?_ (by omega)⟩
  intro x hx
  exact (Ex.ringCall (G := waveRule 5 (1 / 2) 1) 5 4 (by omega) (by omega) [0, 1, 0, 0, 2] rfl false []).start x hx
example : (∃ res, evolve 3 { Ex.ratBase with rule := some (pureRule (burgersRule 4 (1 / 10) (1 / 4) 1)), input := .timesteps 3, memoize := true, past := [] }
      (some (.list [1, 2, 1, 1])) 0 ⟨[Ex.ringNet 4], ()⟩ = .ok res ∧
      ShowsRun { Ex.ratBase with rule := some (pureRule (burgersRule 4 (1 / 10) (1 / 4) 1)), input := .timesteps 3, memoize := true, past := [] } res 3 4
        (ringField 4 (burgers (1 / 4 / 1) (1 / 10 * (1 / 4) / 1 ^ 2)) (fun x => [1, 2, 1, 1].getD x 0))) :=
  C99_burgers (by decide) (Ex.ringCall 4 3 (by omega) (by omega) _ rfl true []) (by omega)
example : (∃ res, evolve 3 { Ex.ratBase with rule := some (pureRule (diffusionRule 4 (3 / 10) 1 1)), input := .timesteps 3, memoize := true, past := [] }
      (some (.list [1, 2, 1, 1])) 0 ⟨[Ex.ringNet 4], ()⟩ = .ok res ∧
      ShowsRun { Ex.ratBase with rule := some (pureRule (diffusionRule 4 (3 / 10) 1 1)), input := .timesteps 3, memoize := true, past := [] } res 3 4
        (ringField 4 (diffuse (3 / 10 * 1 / 1 ^ 2)) (fun x => [1, 2, 1, 1].getD x 0))) ∧
    evolve 3 { Ex.ratBase with rule := some (pureRule (diffusionRule 4 (3 / 10) 1 0)), input := .timesteps 3, memoize := true, past := [] }
      (some (.list [1, 2, 1, 1])) 0 ⟨[Ex.ringNet 4], ()⟩ = .error .zeroDivision :=
  ⟨C99_diffusion (by decide) (Ex.ringCall 4 3 (by omega) (by omega) _ rfl true []) (by omega),
    C99_zero_division (n := 4) (k := 0) (nu := 3 / 10) (dt := 1) (.inr (.inr (.inl rfl))) (Ex.ringCall 4 3 (by omega) (by omega) _ rfl true []) (by omega) (by omega)⟩
example : (∃ res, evolve 3 { Ex.ratBase with rule := some (pureRule (simpleDiffusionRule (1 / 2))), input := .timesteps 3, memoize := true, past := [] }
      (some (.list [1, 2, 1, 1])) 0 ⟨[Ex.ringNet 4], ()⟩ = .ok res ∧
      ShowsRun { Ex.ratBase with rule := some (pureRule (simpleDiffusionRule (1 / 2))), input := .timesteps 3, memoize := true, past := [] } res 3 4
        (ringField 4 (diffuse (1 / 2)) (fun x => [1, 2, 1, 1].getD x 0))) :=
  C99_simple_diffusion (Ex.ringCall 4 3 (by omega) (by omega) _ rfl true []) (by omega)
example : (∃ res, evolve 3 { Ex.ratBase with rule := some (pureRule (nonlinearConvectionRule 4 (1 / 2) 1)), input := .timesteps 3, memoize := true, past := [] }
      (some (.list [1, 2, 1, 1])) 0 ⟨[Ex.ringNet 4], ()⟩ = .ok res ∧
      ShowsRun { Ex.ratBase with rule := some (pureRule (nonlinearConvectionRule 4 (1 / 2) 1)), input := .timesteps 3, memoize := true, past := [] } res 3 4
        (ringField 4 (convectSelf (1 / 2 / 1)) (fun x => [1, 2, 1, 1].getD x 0))) ∧
    evolve 3 { Ex.ratBase with rule := some (pureRule (waveRule 4 (1 / 2) 1)), input := .timesteps 3, memoize := true, past := [] }
      (some (.list [1, 2, 1, 1])) 0 ⟨[Ex.ringNet 4], ()⟩ = .error .typeError :=
  ⟨C99_nonlinear_convection (by decide) (Ex.ringCall 4 3 (by omega) (by omega) _ rfl true []) (by omega),
    C100_no_past (Ex.ringCall 4 3 (by omega) (by omega) _ rfl true []) rfl (by omega) (by omega)⟩

/-- Values: convection by half a cell, diffusion, and the wave equation with its energy. -/
example : (List.range 5).map (ringField 5 (convect (1 / 2)) (fun x => [0, 1, 0, 0, 2].getD x 0) 1) = [1, 1 / 2, 1 / 2, 0, 1] ∧
    (List.range 4).map (ringField 4 (diffuse (1 / 4)) (fun x => [1, 2, 1, 1].getD x 0) 1) = [5 / 4, 3 / 2, 5 / 4, 1] ∧
    (List.range 4).map (waveField 4 1 (fun x => [0, 1, 0, 0].getD x 0) (fun x => [0, 1, 0, 0].getD x 0) 1) = [1, -1, 1, 0] ∧
    waveEnergy 4 1 (fun x => [0, 1, 0, 0].getD x 0) (fun x => [0, 1, 0, 0].getD x 0) = 2 := by decide +kernel

/-- Nonlinear convection in this form does not keep the total; diffusion with number 1 leaves the bounds of the initial values. -/
theorem C99_limits :
    ringTotal 3 (ringField 3 (convectSelf (1 / 2)) (fun x => if x = 0 then 2 else 1) 1) ≠ ringTotal 3 (fun x => if x = 0 then 2 else 1) ∧
    ringField 3 (diffuse 1) (fun x => if x = 0 then 2 else 1) 1 0 = 0 := by decide +kernel

/-- Memoization, which keys on the neighbourhood only, is wrong for the wave equation: on three cells with value 1 and past
values 0, 0, 1 the third cell gets the value 2 of the first; without memoization it keeps 1. -/
theorem C100_memoized :
    ((evolve 4 { Ex.ratBase with rule := some (pureRule (waveRule 3 1 1)), input := .timesteps 4, memoize := true, past := [.list [0, 0, 1]] }
      (some (.list [1, 1, 1])) 0 ⟨[Ex.ringNet 3], ()⟩).toOption.map (fun r => (r.acts Ex.ratBase 1).map (fun d => d.get? 2))) = some (some (some 2)) ∧
    waveField 3 1 (fun _ => 1) (fun x => if x = 2 then 1 else 0) 1 2 = 1 := by decide +kernel

end Verif
