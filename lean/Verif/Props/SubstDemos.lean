import Verif.Model.SubstDemos
import Verif.Spec.Morphism
import Verif.Props.Substitution
/-! # C114: systems with keys of one symbol, and what the demos draw -/

namespace Verif
open Spec
section
variable {S : Type}

theorem growWord_append (f : S → List S) (t : Nat) (u v : List S) :
    growWord f t (u ++ v) = growWord f t u ++ growWord f t v := by
  induction t with
  | zero => rfl
  | succ t ih => simp only [growWord, ih, List.flatMap_append]

theorem growWord_front (f : S → List S) (t : Nat) (w : List S) : growWord f (t + 1) w = growWord f t (w.flatMap f) := by
  induction t with
  | zero => rfl
  | succ t ih => rw [growWord, ih]; rfl

theorem growWord_nil (f : S → List S) (t : Nat) : growWord f t [] = [] := by
  induction t with
  | zero => rfl
  | succ t ih => simp [growWord, ih]

theorem growWord_cons (f : S → List S) (t : Nat) (c : S) (w : List S) :
    growWord f t (c :: w) = growWord f t [c] ++ growWord f t w := growWord_append f t [c] w

theorem growWord_fixed {f : S → List S} {c : S} (h : f c = [c]) (t : Nat) : growWord f t [c] = [c] := by
  induction t with
  | zero => rfl
  | succ t ih => simp [growWord, ih, h]

theorem growWord_flatMap (f : S → List S) (t : Nat) (w : List S) :
    growWord f t w = w.flatMap (fun c => growWord f t [c]) := by
  induction w with
  | nil => exact growWord_nil f t
  | cons c w ih => rw [growWord_cons, ih, List.flatMap_cons]

theorem growWord_add (f : S → List S) (s t : Nat) (w : List S) : growWord f (s + t) w = growWord f t (growWord f s w) := by
  induction t with
  | zero => rfl
  | succ t ih => rw [← Nat.add_assoc, growWord, ih]; rfl

theorem growWord_inv {f : S → List S} {P : S → Prop} (hP : ∀ c, P c → ∀ d ∈ f c, P d) {w : List S} (hw : ∀ c ∈ w, P c) (t : Nat) :
    ∀ c ∈ growWord f t w, P c := by
  induction t with
  | zero => exact hw
  | succ t ih =>
    intro c hc
    obtain ⟨d, hd, hcd⟩ := List.mem_flatMap.1 hc
    exact hP d (ih d hd) c hcd

theorem growWord_map {S' : Type} {f : S → List S} {f' : S' → List S'} {e : S → S'} (he : ∀ c, f' (e c) = (f c).map e)
    (w : List S) (t : Nat) : growWord f' t (w.map e) = (growWord f t w).map e := by
  induction t with
  | zero => rfl
  | succ t ih =>
    simp only [growWord, ih]
    rw [List.flatMap_map, List.map_flatMap]
    congr 1
    funext c
    exact he c

/-! ## Rewriting windows of one symbol -/

theorem windows_one (w : List S) : windows 1 w = w.map (fun c => [c]) := by
  unfold windows
  apply List.ext_getElem
  · simp
  · intro i h1 h2
    have hi : i < w.length := by simpa using h1
    simp only [List.getElem_map, List.getElem_range]
    rw [List.drop_eq_getElem_cons hi]
    rfl

theorem joinE_ok {α : Type} (h : α → List S) (l : List α) : joinE (l.map (fun c => .ok (h c))) = .ok (l.flatMap h) := by
  induction l with
  | nil => rfl
  | cons a l ih => simp [joinE, ih]

theorem rewrite_one {sub : List S → Except Err (List S)} {f : S → List S} {w : List S} (h : ∀ c ∈ w, sub [c] = .ok (f c)) :
    rewrite 1 sub w = .ok (w.flatMap f) := by
  unfold rewrite
  rw [windows_one, List.map_map, ← joinE_ok f w]
  congr 1
  apply List.map_congr_left
  intro c hc
  exact h c hc

/-- C114: if every symbol of the alphabet `P` has the replacement `f c`, the word after `t` steps is the `t`-fold
replacement of all symbols. -/
theorem C114_words {sub : List S → Except Err (List S)} {f : S → List S} {P : S → Prop} (hsub : ∀ c, P c → sub [c] = .ok (f c))
    (hP : ∀ c, P c → ∀ d ∈ f c, P d) {w : List S} (hw : ∀ c ∈ w, P c) (t : Nat) : words 1 sub w t = .ok (growWord f t w) := by
  induction t with
  | zero => rfl
  | succ t ih =>
    simp only [words, ih]
    exact rewrite_one (fun c hc => hsub c (growWord_inv hP hw t c hc))

/-- C114: the word that grows from a word is the concatenation of the words that grow from its symbols. -/
theorem C114_morphism {sub : List S → Except Err (List S)} {f : S → List S} {P : S → Prop} (hsub : ∀ c, P c → sub [c] = .ok (f c))
    (hP : ∀ c, P c → ∀ d ∈ f c, P d) {w : List S} (hw : ∀ c ∈ w, P c) (s t : Nat) :
    ∃ u, words 1 sub w s = .ok u ∧
      ∃ parts : List (List S), parts.length = u.length ∧ words 1 sub w (s + t) = .ok parts.flatten ∧
        ∀ (k : Nat) (c : S), u[k]? = some c → ∃ p, parts[k]? = some p ∧ words 1 sub [c] t = .ok p := by
  refine ⟨_, C114_words hsub hP hw s, (growWord f s w).map (fun c => growWord f t [c]), by simp, ?_, ?_⟩
  · rw [C114_words hsub hP hw (s + t), growWord_add, growWord_flatMap f t, List.flatMap_def]
  · intro k c hc
    refine ⟨_, by rw [List.getElem?_map, hc]; rfl, C114_words hsub hP ?_ t⟩
    intro d hd
    rw [List.mem_singleton.1 hd]
    exact growWord_inv hP hw s c (List.mem_of_getElem? hc)

end

section
variable {C V A I κ : Type} [DecidableEq C] [DecidableEq V] [DecidableEq κ]

/-- C114: the run of a new system with keys of one symbol: every row is the word grown so far. -/
theorem C114_run {cfg : Config Nat A V I SubstState κ} {str : V → List C} {dtype : C → Except Err V}
    {axiom_ : List V} {rules : Dict (List C) (List C)} {constants : List (List C)} {sys : SubstSystem C A}
    (hsys : substInit axiom_ rules constants = .ok sys) (hsize : sys.size = 1) {f : V → List V} {P : V → Prop}
    (hsub : ∀ c, P c → replacement str dtype (fun k => if k ∈ constants then some k else rules.get? k) [c] = .ok (f c))
    (hP : ∀ c, P c → f c ≠ [] ∧ ∀ d ∈ f c, P d) (hw : ∀ c ∈ axiom_, P c) {T : Nat}
    (hc : SubstConfig cfg str dtype sys.rules sys.size T) (hT : 1 ≤ T) {r : Nat} {wd : World Nat A SubstState}
    (hr : wd.heap[r]? = some sys.network) (hu : wd.user = sys.state) {fuel : Nat} (hf : T ≤ fuel) :
    ∃ res, evolve fuel cfg (some (.list axiom_)) r wd = .ok res ∧ res.states.length = T ∧
      ∀ t, t < T → ∃ d, res.acts cfg t = some d ∧ ReadsWord d (growWord f t axiom_) := by
  have hne : axiom_ ≠ [] := by
    obtain ⟨m, _, _, h⟩ := (C54_init (A := A) axiom_ rules constants).1 ⟨sys, hsys⟩
    exact h
  have hwords := C114_words hsub (fun c hc => (hP c hc).2) hw
  have hrun := C54_run hsys hc hT hr hu hf
  rw [hsize, hwords] at hrun
  obtain ⟨res, h1, h2, h3⟩ := hrun
  refine ⟨res, h1, h2, fun t ht => ?_⟩
  obtain ⟨w, h4, h5⟩ := h3 t ht
  rw [hwords t] at h4
  cases h4
  have hgrow : growWord f t axiom_ ≠ [] := by
    clear h5 ht
    induction t with
    | zero => exact hne
    | succ t ih =>
      intro h
      obtain ⟨c, l, hcl⟩ := List.exists_cons_of_ne_nil ih
      have hall := List.flatMap_eq_nil_iff.1 h c (by rw [hcl]; simp)
      exact (hP c (growWord_inv (fun c hc => (hP c hc).2) hw t c (by rw [hcl]; simp))).1 hall
  rcases h5 with ⟨h, _⟩ | ⟨_, d, h6, h7⟩
  · exact absurd h hgrow
  · exact ⟨d, h6, h7⟩

end

/-! ## The first demo: the sequence of Thue and Morse -/

/-- The replacement of the symbols 2 and 1 in the first demo. -/
def thueStep (c : Nat) : List Nat := if c = 2 then [2, 1] else [1, 2]

theorem thue_sub (c : Nat) (h : c = 1 ∨ c = 2) :
    replacement natStr natDtype (fun k => if k ∈ ([] : List (List Char)) then some k else thueRules.get? k) [c] = .ok (thueStep c) := by
  rcases h with rfl | rfl <;> decide +kernel

theorem thue_get (t : Nat) : ∀ c : Nat, c = 1 ∨ c = 2 → (growWord thueStep t [c]).length = 2 ^ t ∧
    ∀ k, k < 2 ^ t → (growWord thueStep t [c])[k]? = some (if binaryOnes k % 2 = 0 then c else 3 - c) := by
  induction t with
  | zero =>
    intro c hc
    refine ⟨rfl, fun k hk => ?_⟩
    have : k = 0 := by simpa using hk
    subst this
    simp [growWord, binaryOnes]
  | succ t ih =>
    intro c hc
    obtain ⟨h1, h2⟩ := ih c hc
    have hlen : ∀ w : List Nat, (w.flatMap thueStep).length = 2 * w.length := by
      intro w
      induction w with
      | nil => rfl
      | cons a w ih => simp only [List.flatMap_cons, List.length_append, ih, List.length_cons, thueStep]; split <;> simp <;> omega
    have hget : ∀ (w : List Nat) (i : Nat), (w.flatMap thueStep)[2 * i]? = w[i]?.bind (fun c => (thueStep c)[0]?) ∧
        (w.flatMap thueStep)[2 * i + 1]? = w[i]?.bind (fun c => (thueStep c)[1]?) := by
      intro w
      induction w with
      | nil => intro i; simp
      | cons a w ih =>
        intro i
        have hl : (thueStep a).length = 2 := by unfold thueStep; split <;> rfl
        cases i with
        | zero =>
          simp only [List.flatMap_cons]
          rw [List.getElem?_append_left (by omega), List.getElem?_append_left (by omega)]
          simp
        | succ i =>
          simp only [List.flatMap_cons]
          rw [List.getElem?_append_right (by omega), List.getElem?_append_right (by omega), hl,
            show 2 * (i + 1) - 2 = 2 * i by omega, show 2 * (i + 1) + 1 - 2 = 2 * i + 1 by omega]
          simpa using ih i
    refine ⟨by rw [growWord, hlen, h1, Nat.pow_succ]; omega, fun k hk => ?_⟩
    have hi : k / 2 < 2 ^ t := by rw [Nat.pow_succ] at hk; omega
    rw [growWord]
    have hb : binaryOnes k = k % 2 + binaryOnes (k / 2) := by
      rw [binaryOnes]
      split
      · subst k; simp [binaryOnes]
      · rfl
    rcases Nat.mod_two_eq_zero_or_one k with hm | hm
    · rw [show k = 2 * (k / 2) by omega, (hget _ _).1, h2 _ hi, show 2 * (k / 2) = k by omega, hb, hm]
      rcases hc with rfl | rfl <;> by_cases h : binaryOnes (k / 2) % 2 = 0 <;> simp [h, thueStep]
    · rw [show k = 2 * (k / 2) + 1 by omega, (hget _ _).2, h2 _ hi, show 2 * (k / 2) + 1 = k by omega, hb, hm]
      rcases hc with rfl | rfl <;> by_cases h : binaryOnes (k / 2) % 2 = 0 <;> simp [h, thueStep] <;> omega

/-- C114, the first demo: row `t` has `2^t` cells; cell `k` is 2 if the number of ones among the binary digits of `k` is
even, and 1 otherwise. -/
theorem C114_thue_morse {A I κ : Type} [DecidableEq κ] {cfg : Config Nat A Nat I SubstState κ} {sys : SubstSystem Char A}
    (hsys : substInit [2] thueRules [] = .ok sys) {T : Nat} (hc : SubstConfig cfg natStr natDtype sys.rules sys.size T)
    (hT : 1 ≤ T) {r : Nat} {wd : World Nat A SubstState} (hr : wd.heap[r]? = some sys.network) (hu : wd.user = sys.state)
    {fuel : Nat} (hf : T ≤ fuel) :
    ∃ res, evolve fuel cfg (some (.list [2])) r wd = .ok res ∧ res.states.length = T ∧
      ∀ t, t < T → ∃ d w, res.acts cfg t = some d ∧ ReadsWord d w ∧ w.length = 2 ^ t ∧
        ∀ k, k < 2 ^ t → w[k]? = some (if binaryOnes k % 2 = 0 then 2 else 1) := by
  have hs : sys.size = 1 := by cases hsys; rfl
  obtain ⟨res, h1, h2, h3⟩ := C114_run hsys hs (f := thueStep) (P := fun c => c = 1 ∨ c = 2) thue_sub
    (fun c hc => by rcases hc with rfl | rfl <;> decide) (by simp) hc hT hr hu hf
  refine ⟨res, h1, h2, fun t ht => ?_⟩
  obtain ⟨d, h4, h5⟩ := h3 t ht
  exact ⟨d, _, h4, h5, (thue_get t 2 (Or.inr rfl)).1, (thue_get t 2 (Or.inr rfl)).2⟩

/-! ## The second demo: the word of Fibonacci -/

/-- The replacement of the symbols 2 and 1 in the second demo. -/
def fibStep (c : Nat) : List Nat := if c = 2 then [1] else [1, 2]

theorem fib_sub (c : Nat) (h : c = 1 ∨ c = 2) :
    replacement natStr natDtype (fun k => if k ∈ ([] : List (List Char)) then some k else fibRules.get? k) [c] = .ok (fibStep c) := by
  rcases h with rfl | rfl <;> decide +kernel

theorem fib_two (t : Nat) : growWord fibStep (t + 1) [2] = growWord fibStep t [1] := growWord_front fibStep t [2]

theorem fib_next (t : Nat) : growWord fibStep (t + 2) [1] = growWord fibStep (t + 1) [1] ++ growWord fibStep t [1] := by
  rw [growWord_front, show ([1] : List Nat).flatMap fibStep = [1] ++ [2] from rfl, growWord_append, fib_two]

theorem fib_length : ∀ t : Nat, (growWord fibStep t [1]).length = fibFrom12 t
  | 0 => rfl
  | 1 => rfl
  | t + 2 => by rw [fib_next, List.length_append, fib_length (t + 1), fib_length t]; rfl

theorem fib_shape (w : List Nat) (hw : ∀ c ∈ w, c = 1 ∨ c = 2) : ∀ k, (w.flatMap fibStep)[k]? = some 2 →
    ∃ k', k = k' + 1 ∧ (w.flatMap fibStep)[k']? = some 1 := by
  induction w with
  | nil => intro k h; simp at h
  | cons a w ih =>
    intro k h
    have hi := ih (fun c hc => hw c (by simp [hc]))
    rcases hw a (by simp) with rfl | rfl
    · simp only [List.flatMap_cons, fibStep, if_neg (show ¬ (1 : Nat) = 2 by decide)] at h ⊢
      match k with
      | 0 => simp at h
      | 1 => exact ⟨0, rfl, by simp⟩
      | k + 2 =>
        have h' : (w.flatMap fibStep)[k]? = some 2 := by simpa [fibStep] using h
        obtain ⟨k', rfl, h2⟩ := hi k h'
        exact ⟨k' + 2, rfl, by simpa [fibStep] using h2⟩
    · simp only [List.flatMap_cons, fibStep, if_true] at h ⊢
      match k with
      | 0 => simp at h
      | k + 1 =>
        have h' : (w.flatMap fibStep)[k]? = some 2 := by simpa [fibStep] using h
        obtain ⟨k', rfl, h2⟩ := hi k h'
        exact ⟨k' + 1, rfl, by simpa [fibStep] using h2⟩

/-- C114, the second demo: the lengths of the rows are the numbers of Fibonacci; every row from the third on is the row before followed
by the row before that; two 2s never stand side by side. -/
theorem C114_fibonacci {A I κ : Type} [DecidableEq κ] {cfg : Config Nat A Nat I SubstState κ} {sys : SubstSystem Char A}
    (hsys : substInit [1] fibRules [] = .ok sys) {T : Nat} (hc : SubstConfig cfg natStr natDtype sys.rules sys.size T)
    (hT : 1 ≤ T) {r : Nat} {wd : World Nat A SubstState} (hr : wd.heap[r]? = some sys.network) (hu : wd.user = sys.state)
    {fuel : Nat} (hf : T ≤ fuel) :
    ∃ (res : _) (w : Nat → List Nat), evolve fuel cfg (some (.list [1])) r wd = .ok res ∧ res.states.length = T ∧
      (∀ t : Nat, t < T → ∃ d, res.acts cfg t = some d ∧ ReadsWord d (w t)) ∧
      w 0 = [1] ∧ w 1 = [1, 2] ∧ (∀ t : Nat, w (t + 2) = w (t + 1) ++ w t) ∧ (∀ t : Nat, (w t).length = fibFrom12 t) ∧
      ∀ t k : Nat, (w t)[k]? = some 2 → (w t)[k + 1]? ≠ some 2 := by
  have hs : sys.size = 1 := by cases hsys; rfl
  have hP : ∀ c, (c = 1 ∨ c = 2) → fibStep c ≠ [] ∧ ∀ d ∈ fibStep c, d = 1 ∨ d = 2 :=
    fun c hc => by rcases hc with rfl | rfl <;> decide
  obtain ⟨res, h1, h2, h3⟩ := C114_run hsys hs (f := fibStep) (P := fun c => c = 1 ∨ c = 2) fib_sub hP (by simp) hc hT hr hu hf
  refine ⟨res, fun t => growWord fibStep t [1], h1, h2, h3, rfl, rfl, fib_next, fib_length, ?_⟩
  intro t k h h'
  cases t with
  | zero => match k with
    | 0 => simp [growWord] at h
    | k + 1 => simp [growWord] at h
  | succ t =>
    obtain ⟨k', hk, h2⟩ := fib_shape _ (growWord_inv (fun c hc => (hP c hc).2) (by simp) t) (k + 1) h'
    have : k' = k := by omega
    subst this
    have h : ((growWord fibStep t [1]).flatMap fibStep)[k']? = some 2 := h
    rw [h] at h2
    cases h2

/-! ## Examples -/

namespace ExMorph

/-- The settings of a run with numbers as activities. -/
def cfg (rules : Dict (List Char) (List Char)) (m T : Nat) : Config Nat (List Char) Nat Int SubstState Unit :=
  { rule := some (substRule natStr natDtype rules m), input := .timesteps T, topology := none, perturbation := none, past := [],
    order := .activitiesFirst, copyNetwork := true, compression := false, persistActs := true, persistNet := true,
    memoize := false, key := none, natLabel := id, labelIdx := fun x => some (x : Int), actAttr := fun v => natStr v,
    labelCodec := ⟨fun _ => .ok (), id⟩, attrCodec := ⟨fun _ => .ok (), id⟩, valCodec := ⟨fun _ => .ok (), id⟩ }

theorem config (m T : Nat) (hm : 1 ≤ m) (rules : Dict (List Char) (List Char)) :
    SubstConfig (cfg rules m T) natStr natDtype rules m T :=
  ⟨⟨rfl, rfl, rfl, rfl, rfl, rfl, fun _ => ⟨rfl, rfl⟩, fun _ => ⟨rfl, rfl⟩, hm⟩, rfl, rfl, rfl⟩

/-- The constructor accepts the rules of the demos. -/
example : ∃ sys : SubstSystem Char (List Char), substInit [2] thueRules [] = .ok sys ∧
    SubstConfig (cfg sys.rules sys.size 6) natStr natDtype sys.rules sys.size 6 ∧
    (⟨[sys.network], sys.state⟩ : World Nat (List Char) SubstState).heap[0]? = some sys.network :=
  ⟨_, rfl, config _ _ (by decide) _, rfl⟩

example : ∃ sys : SubstSystem Char (List Char), substInit [1] fibRules [] = .ok sys ∧
    SubstConfig (cfg sys.rules sys.size 6) natStr natDtype sys.rules sys.size 6 :=
  ⟨_, rfl, config _ _ (by decide) _⟩

example : growWord thueStep 3 [2] = [2, 1, 1, 2, 1, 2, 2, 1] := by decide
example : growWord fibStep 4 [1] = [1, 2, 1, 1, 2, 1, 2, 1] := by decide
example : binaryOnes 6 = 2 := by simp [binaryOnes]

end ExMorph
end Verif
