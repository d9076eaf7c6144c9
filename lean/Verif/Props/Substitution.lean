import Verif.Proofs.SubstitutionRun
import Verif.Props.Requests
/-! # Property C54: substitution systems rewrite strings

`words m sub w t` (`Spec/Substitution.lean`) is the word after `t` rewriting steps: every window of `m` consecutive symbols is
replaced by what the rule map gives for it, left to right; the first failing lookup (or conversion) fails the step. -/

namespace Verif
open Spec

section
variable {C A V I κ : Type} [DecidableEq C] [DecidableEq V] [DecidableEq κ]

/-- The activities are the word `w`: consecutive labels from some `b` carry its symbols, in order. -/
def ReadsWord (d : Dict Nat V) (w : List V) : Prop :=
  ∃ b, d.keys = List.range' b w.length ∧ ∀ i, d.get? (b + i) = w[i]?

/-- The settings of a run of `T` timesteps of a system with the rules `rules` and keys of length `m`. -/
structure SubstConfig (cfg : Config Nat A V I SubstState κ) (str : V → List C) (dtype : C → Except Err V)
    (rules : Dict (List C) (List C)) (m T : Nat) : Prop where
  run : SubstRun cfg str dtype rules m T
  persist : cfg.persistActs = true
  compression : cfg.compression = false
  nat : cfg.natLabel = id

/-! ## The constructor -/

omit [DecidableEq V] in
theorem get?_constants (constants : List (List C)) (d : Dict (List C) (List C)) (k : List C) :
    (d.update (constants.map (fun c => (c, c)))).get? k = if k ∈ constants then some k else d.get? k := by
  unfold Dict.update
  induction constants generalizing d with
  | nil => simp
  | cons c cs ih =>
    rw [List.map_cons, List.foldl_cons, ih, Dict.get?_set]
    by_cases h : k ∈ cs
    · simp [h]
    · by_cases hk : k = c
      · subst hk; simp [h]
      · simp [h, hk, Ne.symm hk]

theorem keys_substRules (rules : Dict (List C) (List C)) (constants : List (List C)) (k : List C) :
    k ∈ (substRules rules constants).keys ↔ k ∈ rules.keys ∨ k ∈ constants := by
  unfold substRules
  rw [Dict.mem_keys_update]
  simp [Dict.keys]

omit [DecidableEq C] in
theorem neighbourhoodSize_ok (d : Dict (List C) (List C)) (m : Nat) :
    neighbourhoodSize d = .ok m ↔ d ≠ [] ∧ ∀ k ∈ d.keys, k.length = m := by
  cases d with
  | nil => simp [neighbourhoodSize]
  | cons p ps =>
    unfold neighbourhoodSize
    simp only [ne_eq, reduceCtorEq, not_false_eq_true, true_and, Dict.keys, List.map_cons, List.mem_cons, forall_eq_or_imp,
      List.all_cons, decide_true, Bool.true_and]
    split
    · rename_i h
      simp only [List.all_eq_true, decide_eq_true_eq] at h
      simp only [Except.ok.injEq]
      constructor
      · intro hm
        refine ⟨hm, fun k hk => ?_⟩
        obtain ⟨q, hq, rfl⟩ := List.mem_map.1 hk
        rw [h q hq, hm]
      · exact fun hm => hm.1
    · rename_i h
      simp only [reduceCtorEq, false_iff]
      rintro ⟨hm, hall⟩
      apply h
      simp only [List.all_eq_true, decide_eq_true_eq]
      intro q hq
      rw [hall q.1 (List.mem_map.2 ⟨q, hq, rfl⟩), hm]

omit [DecidableEq V] in
/-- The constructor succeeds iff there is a rule or a constant, all keys (with the constants) have one length and the axiom
is not empty. -/
theorem C54_init (axiom_ : List V) (rules : Dict (List C) (List C)) (constants : List (List C)) :
    (∃ sys, (substInit axiom_ rules constants : Except Err (SubstSystem C A)) = .ok sys) ↔
      (∃ m, (∀ k, (k ∈ rules.keys ∨ k ∈ constants) → k.length = m) ∧ ¬ (rules = [] ∧ constants = []) ∧ axiom_ ≠ []) := by
  have hnil : substRules rules constants = [] ↔ rules = [] ∧ constants = [] := by
    constructor
    · intro h
      have hno : ∀ k, ¬ (k ∈ rules.keys ∨ k ∈ constants) := fun k hk => by
        rw [← keys_substRules, h] at hk; simp [Dict.keys] at hk
      constructor
      · cases rules with
        | nil => rfl
        | cons p ps => exact absurd (Or.inl (by simp [Dict.keys])) (hno p.1)
      · cases constants with
        | nil => rfl
        | cons c cs => exact absurd (Or.inr (by simp)) (hno c)
    · rintro ⟨rfl, rfl⟩; rfl
  constructor
  · rintro ⟨sys, h⟩
    unfold substInit at h
    cases hs : neighbourhoodSize (substRules rules constants) with
    | error e => rw [hs] at h; cases h
    | ok m =>
      rw [hs] at h
      simp only at h
      split at h
      · cases h
      · rename_i ha
        rw [neighbourhoodSize_ok] at hs
        refine ⟨m, fun k hk => hs.2 k ((keys_substRules _ _ _).2 hk), fun hh => hs.1 (hnil.2 hh), ?_⟩
        rintro rfl
        exact ha rfl
  · rintro ⟨m, h1, h2, h3⟩
    have hs : neighbourhoodSize (substRules rules constants) = .ok m := by
      rw [neighbourhoodSize_ok]
      exact ⟨fun h => h2 (hnil.1 h), fun k hk => h1 k ((keys_substRules _ _ _).1 hk)⟩
    unfold substInit
    rw [hs]
    simp only
    rw [if_neg (by simpa using h3)]
    exact ⟨_, rfl⟩

omit [DecidableEq V] in
/-- What the constructor sets up: constants are replaced by themselves. -/
theorem C54_system (axiom_ : List V) (rules : Dict (List C) (List C)) (constants : List (List C)) (sys : SubstSystem C A)
    (h : substInit axiom_ rules constants = .ok sys) :
    (∀ k, sys.rules.get? k = if k ∈ constants then some k else rules.get? k) ∧
    (∀ k ∈ sys.rules.keys, k.length = sys.size) ∧ sys.network = substNetwork sys.size axiom_.length ∧
    sys.state = ⟨axiom_.length - 1, 0, 0⟩ := by
  unfold substInit at h
  cases hs : neighbourhoodSize (substRules rules constants) with
  | error e => rw [hs] at h; cases h
  | ok m =>
    rw [hs] at h
    simp only at h
    split at h
    · cases h
    · cases h
      exact ⟨fun k => get?_constants constants rules k, ((neighbourhoodSize_ok _ _).1 hs).2, rfl, rfl⟩

/-! ## Runs -/

theorem subst_run {cfg : Config Nat A V I SubstState κ} {str : V → List C} {dtype : C → Except Err V}
    {rules : Dict (List C) (List C)} {m T : Nat} (hc : SubstConfig cfg str dtype rules m T) (hT : 1 ≤ T) (w0 : List V)
    {r : Nat} {wd : World Nat A SubstState} (hr : wd.heap[r]? = some (substNetwork m w0.length))
    (hu : wd.user.lastT ≠ 1 ∨ wd.user.added = 0) {fuel : Nat} (hf : T ≤ fuel) :
    match words m (replacement str dtype rules.get?) w0 (T - 1) with
    | .error e => evolve fuel cfg (some (.list w0)) r wd = .error e
    | .ok _ => ∃ res, evolve fuel cfg (some (.list w0)) r wd = .ok res ∧ res.states.length = T ∧
        ∀ t, t < T → ∃ w, words m (replacement str dtype rules.get?) w0 t = .ok w ∧
          ((w = [] ∧ res.acts cfg t = none) ∨ (w ≠ [] ∧ ∃ b, res.acts cfg t = some (wordDict b w))) := by
  have hs : cfg.Safe := safe_of_no_topology hc.run.top
  have hp : cfg.PackOk := fun h => by rw [hc.compression] at h; cases h
  have hrun := word_run hc.run hT w0 hc.nat wd.user hu hf
  cases hw : words m (replacement str dtype rules.get?) w0 (T - 1) with
  | error e =>
    rw [hw] at hrun
    exact (evolve_error_iff hs hp hr e).2 hrun
  | ok wl =>
    rw [hw] at hrun
    obtain ⟨v, h1, h2, h3⟩ := hrun
    obtain ⟨res, ext, e1, e2, e3⟩ := evolve_of_vevolve hs hp hr h1
    refine ⟨res, e1, by rw [e3.len, h2], ?_⟩
    intro t ht
    have hget : v.hist[t]? = some v.hist[t] := List.getElem?_eq_getElem (by omega)
    obtain ⟨b, w, q1, q2⟩ := h3 t _ hget
    refine ⟨w, q1, ?_⟩
    rw [e3.acts t, hget]
    simp only [Option.bind_some, obsActs, hc.persist, hc.compression, or_true, true_and, Bool.false_eq_true, if_false, q2]
    cases w with
    | nil => left; simp [wordDict]
    | cons c w => right; exact ⟨by simp, b, by simp [wordDict]⟩

/-- C54: a run of a new system shows at every timestep the word obtained by rewriting all windows of the word before; it
raises exactly what the first failing step raises.  A timestep with the empty word has no activities. -/
theorem C54_run {cfg : Config Nat A V I SubstState κ} {str : V → List C} {dtype : C → Except Err V}
    {axiom_ : List V} {rules : Dict (List C) (List C)} {constants : List (List C)} {sys : SubstSystem C A}
    (hsys : substInit axiom_ rules constants = .ok sys) {T : Nat} (hc : SubstConfig cfg str dtype sys.rules sys.size T)
    (hT : 1 ≤ T) {r : Nat} {wd : World Nat A SubstState} (hr : wd.heap[r]? = some sys.network) (hu : wd.user = sys.state)
    {fuel : Nat} (hf : T ≤ fuel) :
    match words sys.size (replacement str dtype (fun k => if k ∈ constants then some k else rules.get? k)) axiom_ (T - 1) with
    | .error e => evolve fuel cfg (some (.list axiom_)) r wd = .error e
    | .ok _ => ∃ res, evolve fuel cfg (some (.list axiom_)) r wd = .ok res ∧ res.states.length = T ∧
        ∀ t, t < T → ∃ w,
          words sys.size (replacement str dtype (fun k => if k ∈ constants then some k else rules.get? k)) axiom_ t = .ok w ∧
          ((w = [] ∧ res.acts cfg t = none) ∨ (w ≠ [] ∧ ∃ d, res.acts cfg t = some d ∧ ReadsWord d w)) := by
  obtain ⟨h1, _, hnet, h4⟩ := C54_system axiom_ rules constants sys hsys
  have hfun : (fun k => if k ∈ constants then some k else rules.get? k) = sys.rules.get? := by
    funext k; rw [h1 k]
  rw [hfun]
  have hrun := subst_run hc hT axiom_ (r := r) (wd := wd) (by rw [hr, hnet]) (Or.inr (by rw [hu, h4])) hf
  cases hw : words sys.size (replacement str dtype sys.rules.get?) axiom_ (T - 1) with
  | error e => rw [hw] at hrun; exact hrun
  | ok wl =>
    rw [hw] at hrun
    obtain ⟨res, e1, e2, e3⟩ := hrun
    refine ⟨res, e1, e2, fun t ht => ?_⟩
    obtain ⟨w, q1, q2⟩ := e3 t ht
    refine ⟨w, q1, ?_⟩
    rcases q2 with q | ⟨q, b, q'⟩
    · exact Or.inl q
    · exact Or.inr ⟨q, _, q', b, keys_wordDict b w, get?_wordDict b w⟩

/-! ## `pad` and `to_string` -/

omit [DecidableEq V] in
theorem row_of_reads {d : Dict Nat V} {w : List V} (h : ReadsWord d w) : activityRow (fun a b => decide (a ≤ b)) d = w := by
  obtain ⟨b, h1, h2⟩ := h
  unfold activityRow
  rw [h1, List.mergeSort_of_pairwise]
  · have : ∀ k i, i + k = w.length → (List.range' (b + i) k).filterMap d.get? = w.drop i := by
      intro k
      induction k with
      | zero => intro i hi; rw [List.drop_eq_nil_of_le (by omega)]; rfl
      | succ k ih =>
        intro i hi
        rw [List.range'_succ, List.filterMap_cons, h2 i, List.getElem?_eq_getElem (by omega)]
        simp only
        rw [show b + i + 1 = b + (i + 1) by omega, ih (i + 1) (by omega), List.drop_eq_getElem_cons (i := i) (by omega)]
    simpa using this w.length 0 (by omega)
  · have := List.pairwise_lt_range' (s := b) (n := w.length) (step := 1)
    exact this.imp (fun h => by simp; omega)

/-- The states of a run with the words `ws`. -/
def ShowsWordList (ds : List (Option (Dict Nat V))) (ws : List (List V)) : Prop :=
  ds.length = ws.length ∧ ∀ (t : Nat) (d : Option (Dict Nat V)) (w : List V), ds[t]? = some d → ws[t]? = some w →
    (w = [] ∧ d = none) ∨ (w ≠ [] ∧ ∃ d', d = some d' ∧ ReadsWord d' w)

theorem rows_of_reads {e : Err} {ds : List (Option (Dict Nat V))} {ws : List (List V)} (h : ShowsWordList ds ws) :
    substRows e ds = if [] ∈ ws then .error e else .ok ws := by
  induction ds generalizing ws with
  | nil =>
    have : ws = [] := List.eq_nil_of_length_eq_zero h.1.symm
    subst this
    simp [substRows]
  | cons d ds ih =>
    obtain ⟨hlen, hall⟩ := h
    cases ws with
    | nil => simp at hlen
    | cons w ws =>
      have hrest : ShowsWordList ds ws := ⟨by simpa using hlen, fun t d' w' h1 h2 => hall (t + 1) d' w' (by simpa using h1) (by simpa using h2)⟩
      rcases hall 0 d w rfl rfl with ⟨rfl, rfl⟩ | ⟨hne, d', rfl, hr⟩
      · simp [substRows]
      · simp only [substRows, ih hrest, row_of_reads hr, List.mem_cons]
        by_cases hm : [] ∈ ws
        · simp [hm]
        · simp [hm, Ne.symm hne]

/-- C54: `to_string` gives the strings of the words; it raises if a word is empty. -/
theorem C54_to_string {ds : List (Option (Dict Nat (List C)))} {ws : List (List (List C))} (h : ShowsWordList ds ws) :
    substToString ds = if [] ∈ ws then .error .typeError else .ok (ws.map List.flatten) := by
  unfold substToString
  rw [rows_of_reads h]
  by_cases hm : [] ∈ ws <;> simp [hm]

omit [DecidableEq V] in
theorem foldl_max (ls : List (List V)) (n : Nat) :
    n ≤ ls.foldl (fun w row => max w row.length) n ∧ (∀ l ∈ ls, l.length ≤ ls.foldl (fun w row => max w row.length) n) ∧
    (ls.foldl (fun w row => max w row.length) n = n ∨ ∃ l ∈ ls, l.length = ls.foldl (fun w row => max w row.length) n) := by
  induction ls generalizing n with
  | nil => simp
  | cons l ls ih =>
    obtain ⟨h1, h2, h3⟩ := ih (max n l.length)
    simp only [List.foldl_cons]
    refine ⟨by omega, ?_, ?_⟩
    · intro l' hl'
      rcases List.mem_cons.1 hl' with rfl | hl'
      · omega
      · exact h2 l' hl'
    · rcases h3 with h3 | ⟨l', hl', h3⟩
      · rcases Nat.le_total n l.length with hle | hle
        · right; exact ⟨l, by simp, by omega⟩
        · left; omega
      · right; exact ⟨l', by simp [hl'], h3⟩

/-- C54: `pad` fills the words up with zeros to the length of the longest one; it raises if a word is empty. -/
theorem C54_pad (zero : V) {ds : List (Option (Dict Nat V))} {ws : List (List V)} (h : ShowsWordList ds ws) :
    ([] ∈ ws → substPad zero ds = .error (.exception "AttributeError")) ∧
    (ws = [] → substPad zero ds = .error .valueError) ∧
    ([] ∉ ws → ws ≠ [] → ∃ width, (∀ w ∈ ws, w.length ≤ width) ∧ (∃ w ∈ ws, w.length = width) ∧
      substPad zero ds = .ok (ws.map (fun w => w ++ List.replicate (width - w.length) zero))) := by
  unfold substPad
  rw [rows_of_reads h]
  refine ⟨fun hm => by simp [hm], fun hw => by simp [hw], ?_⟩
  intro hm hne
  simp only [hm, if_false]
  cases ws with
  | nil => exact absurd rfl hne
  | cons w ws =>
    obtain ⟨h1, h2, h3⟩ := foldl_max (w :: ws) 0
    refine ⟨_, h2, ?_, rfl⟩
    rcases h3 with h3 | h3
    · refine ⟨w, by simp, ?_⟩
      have := h2 w (by simp)
      omega
    · exact h3

end

/-! ## Examples -/

namespace ExSubst

/-- Rules with keys of length 2 over the letters `a` and `b`. -/
def rules : Dict (List Char) (List Char) := [(['a', 'a'], ['a', 'b']), (['a', 'b'], ['b', 'a', 'a']), (['b', 'a'], ['b']), (['b', 'b'], [])]

/-- The activities are strings of one character. -/
def str (v : List Char) : List Char := v

/-- `str(c)` of a character. -/
def dtype (c : Char) : Except Err (List Char) := .ok [c]

/-- The settings of a run. -/
def cfg (rules : Dict (List Char) (List Char)) (m T : Nat) : Config Nat (List Char) (List Char) Int SubstState Unit :=
  { rule := some (substRule str dtype rules m), input := .timesteps T, topology := none, perturbation := none, past := [],
    order := .activitiesFirst, copyNetwork := true, compression := false, persistActs := true, persistNet := true,
    memoize := false, key := none, natLabel := id, labelIdx := fun x => some (x : Int), actAttr := id,
    labelCodec := ⟨fun _ => .ok (), id⟩, attrCodec := ⟨fun _ => .ok (), id⟩, valCodec := ⟨fun _ => .ok (), id⟩ }

theorem config (m T : Nat) (hm : 1 ≤ m) (rules : Dict (List Char) (List Char)) : SubstConfig (cfg rules m T) str dtype rules m T :=
  ⟨⟨rfl, rfl, rfl, rfl, rfl, rfl, fun _ => ⟨rfl, rfl⟩, fun _ => ⟨rfl, rfl⟩, hm⟩, rfl, rfl, rfl⟩

instance : DecidableEq (Option (List (Nat × List Char))) := inferInstance

/-- The activities and the state of the system after a run, or the exception. -/
def run (rules : Dict (List Char) (List Char)) (m T : Nat) (w : List (List Char)) (u : SubstState) :
    Except Err (List (Option (List (Nat × List Char))) × SubstState) :=
  match evolve (T + 1) (cfg rules m T) (some (.list w)) 0 ⟨[substNetwork m w.length], u⟩ with
  | .error e => .error e
  | .ok res => .ok ((List.range T).map (res.acts (cfg rules m T)), res.world.user)

/-- The rows of the words `aab`, `abbaa`, `baabab`. -/
example : run rules 2 3 [['a'], ['a'], ['b']] ⟨2, 0, 0⟩ =
    .ok ([some [(0, ['a']), (1, ['a']), (2, ['b'])], some [(3, ['a']), (4, ['b']), (5, ['b']), (6, ['a']), (7, ['a'])],
      some [(8, ['b']), (9, ['a']), (10, ['a']), (11, ['b']), (12, ['a']), (13, ['b'])]], ⟨13, 6, 2⟩) := by decide +kernel

example : (List.range 3).map (words 2 (replacement str dtype rules.get?) [['a'], ['a'], ['b']]) =
    [.ok [['a'], ['a'], ['b']], .ok [['a'], ['b'], ['b'], ['a'], ['a']],
     .ok [['b'], ['a'], ['a'], ['b'], ['a'], ['b']]] := by decide +kernel

/-- The constructor accepts these rules, so `C54_run` applies. -/
example : ∃ sys : SubstSystem Char (List Char), substInit [['a'], ['a'], ['b']] rules [] = .ok sys ∧ sys.size = 2 ∧
    SubstConfig (cfg sys.rules sys.size 3) str dtype sys.rules sys.size 3 :=
  ⟨_, rfl, rfl, config _ _ (by decide) _⟩

/-- Two of the rules. -/
def fewRules : Dict (List Char) (List Char) := rules.take 2

/-- A window without a rule: the run raises what the rewriting raises. -/
example : run fewRules 2 3 [['a'], ['a'], ['b']] ⟨2, 0, 0⟩ = .error .keyError ∧
    words 2 (replacement str dtype fewRules.get?) [['a'], ['a'], ['b']] 2 = .error .keyError := by decide +kernel

/-- Rules of different lengths are rejected. -/
example : (substInit [['a']] [(['a'], ['b']), (['a', 'b'], [])] [] : Except Err (SubstSystem Char (List Char))) =
    .error (.exception "all keys in the rule map must be the same length") := rfl

example : ShowsWordList [some [(3, ['a']), (4, ['b'])], none] [[['a'], ['b']], []] := by
  refine ⟨rfl, ?_⟩
  intro t d w h1 h2
  match t with
  | 0 =>
    cases h1; cases h2
    refine Or.inr ⟨by simp, _, rfl, 3, rfl, ?_⟩
    intro i
    match i with
    | 0 => rfl
    | 1 => rfl
    | i + 2 => simp [Dict.get?]; omega
  | 1 => cases h1; cases h2; exact Or.inl ⟨rfl, rfl⟩
  | t + 2 => cases h1

end ExSubst

/-- A timestep with an empty word: the word `bb` is replaced by nothing, the rewriting goes on with the empty word, and
`to_string` raises. -/
theorem C54_empty_word : ∃ u, ExSubst.run ExSubst.rules 2 3 [['b'], ['b']] ⟨1, 0, 0⟩ =
    .ok ([some [(0, ['b']), (1, ['b'])], none, none], u) ∧
    substToString [some [(0, ['b']), (1, ['b'])], none, none] = .error .typeError := by
  refine ⟨⟨1, 0, 1⟩, by decide +kernel, ?_⟩
  simp [substToString, substRows]

/-- The same system object evolved twice, first for two timesteps and then for three: the first run leaves the counter of
added nodes standing, because the second run starts with the same timestep 1; the second run then links to nodes that do
not exist, and raises `KeyError`, although the rewriting does not fail. -/
theorem C54_reuse : ∃ ds u, ExSubst.run ExSubst.rules 2 2 [['a'], ['a'], ['b']] ⟨2, 0, 0⟩ = .ok (ds, u) ∧
    ExSubst.run ExSubst.rules 2 3 [['a'], ['a'], ['b']] u = .error .keyError ∧
    ∃ w, words 2 (replacement ExSubst.str ExSubst.dtype ExSubst.rules.get?) [['a'], ['a'], ['b']] 2 = .ok w := by
  refine ⟨[some [(0, ['a']), (1, ['a']), (2, ['b'])], some [(3, ['a']), (4, ['b']), (5, ['b']), (6, ['a']), (7, ['a'])]],
    ⟨7, 5, 1⟩, by decide +kernel, by decide +kernel, [['b'], ['a'], ['a'], ['b'], ['a'], ['b']], by decide +kernel⟩

end Verif
