import Verif.Py.Err
/-! # Python dictionaries

A `dict` is an association list in insertion order (Python >= 3.6, relied on by
`/repo/netomaton/evolution.py:234`).  The invariant `(keys d).Nodup` is kept by all operations used in the
model; it is a hypothesis of the lemmas that need it. -/

namespace Verif

/-- A Python `dict` with keys `K` and values `V`, oldest entry first. -/
abbrev Dict (K V : Type) := List (K × V)

namespace Dict
variable {K V W : Type} [DecidableEq K]

/-- `d.keys()` in insertion order. -/
def keys (d : Dict K V) : List K := d.map Prod.fst

/-- `d.values()` in insertion order. -/
def values (d : Dict K V) : List V := d.map Prod.snd

/-- `d.get(k)`; `none` is "absent". -/
def get? : Dict K V → K → Option V
  | [], _ => none
  | (k', v) :: d, k => if k' = k then some v else get? d k

/-- `k in d`. -/
def has (d : Dict K V) (k : K) : Bool := (get? d k).isSome

/-- `d[k]`, raising `KeyError`. -/
def get (d : Dict K V) (k : K) : Except Err V :=
  match get? d k with
  | some v => .ok v
  | none => .error .keyError

/-- `d[k] = v`: keeps the position of an existing key, appends a new one. -/
def set : Dict K V → K → V → Dict K V
  | [], k, v => [(k, v)]
  | (k', v') :: d, k, v => if k' = k then (k, v) :: d else (k', v') :: set d k v

/-- `del d[k]` for a present key (no effect for an absent one; callers check presence). -/
def erase (d : Dict K V) (k : K) : Dict K V := d.filter (fun p => decide (p.1 ≠ k))

/-- In-place change of the value stored under `k` (`d[k].x = ...`, `d[k] += ...`), keys and order kept.  No effect
for an absent key; callers check presence. -/
def modify (d : Dict K V) (k : K) (f : V → V) : Dict K V :=
  d.map (fun p => if p.1 = k then (p.1, f p.2) else p)

/-- `d.update(e)`. -/
def update (d e : Dict K V) : Dict K V := e.foldl (fun d p => set d p.1 p.2) d

/-- Python's `==` on dicts: same keys with equal values, order irrelevant. -/
def Equiv (d e : Dict K V) : Prop := ∀ k, get? d k = get? e k

/-- `{k: f(k) for k in ks}` for pairwise different keys. -/
def ofKeys (ks : List K) (f : K → V) : Dict K V := ks.map (fun k => (k, f k))

/-! ## Lemmas -/

omit [DecidableEq K] in
@[simp] theorem keys_nil : keys ([] : Dict K V) = [] := rfl
omit [DecidableEq K] in
@[simp] theorem keys_cons (p : K × V) (d : Dict K V) : keys (p :: d) = p.1 :: keys d := rfl
omit [DecidableEq K] in
@[simp] theorem keys_append (d e : Dict K V) : keys (d ++ e : List (K × V)) = keys d ++ keys e := by
  simp [keys]
@[simp] theorem get?_nil (k : K) : get? ([] : Dict K V) k = none := rfl
theorem get?_cons (p : K × V) (d : Dict K V) (k : K) :
    get? (p :: d) k = if p.1 = k then some p.2 else get? d k := rfl

theorem get?_append (d e : Dict K V) (k : K) :
    get? (d ++ e : List (K × V)) k = (get? d k).or (get? e k) := by
  induction d with
  | nil => simp
  | cons p d ih => by_cases h : p.1 = k <;> simp [get?_cons, h, ih]

theorem get?_eq_none_iff {d : Dict K V} {k : K} : get? d k = none ↔ k ∉ keys d := by
  induction d with
  | nil => simp
  | cons p d ih =>
    by_cases h : p.1 = k
    · simp [get?_cons, h]
    · simp only [get?_cons, h, if_false, ih, keys_cons, List.mem_cons, not_or]
      exact ⟨fun h' => ⟨fun e => h e.symm, h'⟩, fun h' => h'.2⟩

theorem isSome_get?_iff {d : Dict K V} {k : K} : (get? d k).isSome ↔ k ∈ keys d := by
  have := @get?_eq_none_iff K V _ d k
  cases h : get? d k <;> simp_all

theorem has_iff {d : Dict K V} {k : K} : has d k = true ↔ k ∈ keys d := isSome_get?_iff

theorem has_eq_false_iff {d : Dict K V} {k : K} : has d k = false ↔ k ∉ keys d := by
  rw [← has_iff]; simp

theorem mem_of_get? {d : Dict K V} {k : K} {v : V} (h : get? d k = some v) : (k, v) ∈ d := by
  induction d with
  | nil => simp at h
  | cons p d ih =>
    by_cases hp : p.1 = k
    · simp [get?_cons, hp] at h
      have : p = (k, v) := by ext <;> simp [hp, h]
      simp [this]
    · simp [get?_cons, hp] at h
      exact List.mem_cons_of_mem _ (ih h)

theorem mem_keys_of_get? {d : Dict K V} {k : K} {v : V} (h : get? d k = some v) : k ∈ keys d :=
  isSome_get?_iff.1 (by simp [h])

theorem get?_of_mem {d : Dict K V} (hd : (keys d).Nodup) {k : K} {v : V} (h : (k, v) ∈ d) :
    get? d k = some v := by
  induction d with
  | nil => simp at h
  | cons p d ih =>
    simp only [keys_cons, List.nodup_cons] at hd
    rcases List.mem_cons.1 h with h | h
    · subst h; simp [get?_cons]
    · have : p.1 ≠ k := by
        intro e; apply hd.1; rw [e]; exact List.mem_map.2 ⟨(k, v), h, rfl⟩
      simp [get?_cons, this, ih hd.2 h]

theorem get?_eq_some_iff {d : Dict K V} (hd : (keys d).Nodup) {k : K} {v : V} :
    get? d k = some v ↔ (k, v) ∈ d := ⟨mem_of_get?, get?_of_mem hd⟩

theorem exists_get?_of_mem_keys {d : Dict K V} {k : K} (h : k ∈ keys d) : ∃ v, get? d k = some v := by
  have := isSome_get?_iff.2 h
  exact Option.isSome_iff_exists.1 this

theorem get_eq_ok_iff {d : Dict K V} {k : K} {v : V} : get d k = .ok v ↔ get? d k = some v := by
  unfold get; cases get? d k <;> simp

theorem get_eq_error_iff {d : Dict K V} {k : K} {e : Err} :
    get d k = .error e ↔ k ∉ keys d ∧ e = .keyError := by
  unfold get
  rw [← get?_eq_none_iff]
  cases get? d k <;> simp [eq_comm]

theorem get?_set (d : Dict K V) (k k' : K) (v : V) :
    get? (set d k v) k' = if k = k' then some v else get? d k' := by
  induction d with
  | nil => simp [set, get?_cons]
  | cons p d ih =>
    obtain ⟨a, b⟩ := p
    by_cases h : a = k
    · subst h; by_cases h' : a = k' <;> simp [set, get?_cons, h']
    · by_cases h' : k = k'
      · subst h'; simp [set, get?_cons, h, ih]
      · by_cases h'' : a = k'
        · subst h''; simp [set, get?_cons, h]; intro e; exact absurd e h'
        · simp [set, get?_cons, h, h', h'', ih]

@[simp] theorem get?_set_self (d : Dict K V) (k : K) (v : V) : get? (set d k v) k = some v := by
  simp [get?_set]

theorem keys_set (d : Dict K V) (k : K) (v : V) :
    keys (set d k v) = if k ∈ keys d then keys d else keys d ++ [k] := by
  induction d with
  | nil => simp [set]
  | cons p d ih =>
    obtain ⟨a, b⟩ := p
    by_cases h : a = k
    · subst h; simp [set]
    · have h' : k ≠ a := fun e => h e.symm
      simp only [set, h, if_false, keys_cons, ih, List.mem_cons, h', false_or]
      split <;> simp

theorem set_of_not_mem {d : Dict K V} {k : K} (h : k ∉ keys d) (v : V) : set d k v = d ++ [(k, v)] := by
  induction d with
  | nil => rfl
  | cons p d ih =>
    obtain ⟨a, b⟩ := p
    simp only [keys_cons, List.mem_cons, not_or] at h
    have h' : ¬ a = k := fun e => h.1 e.symm
    simp [set, h', ih h.2]

theorem mem_keys_set {d : Dict K V} {k k' : K} {v : V} :
    k' ∈ keys (set d k v) ↔ k' = k ∨ k' ∈ keys d := by
  rw [keys_set]; split
  · rename_i h
    constructor
    · exact Or.inr
    · rintro (rfl | h') <;> assumption
  · simp only [List.mem_append, List.mem_singleton]; exact or_comm

theorem nodup_keys_set {d : Dict K V} (hd : (keys d).Nodup) (k : K) (v : V) : (keys (set d k v)).Nodup := by
  rw [keys_set]; split
  · exact hd
  · rename_i h
    rw [List.nodup_append]
    refine ⟨hd, by simp, ?_⟩
    intro a ha b hb
    simp at hb; subst hb; rintro rfl; exact h ha

theorem keys_erase (d : Dict K V) (k : K) : keys (erase d k) = (keys d).filter (fun x => decide (x ≠ k)) := by
  simp only [keys, erase, List.filter_map]; rfl

theorem get?_erase (d : Dict K V) (k k' : K) :
    get? (erase d k) k' = if k = k' then none else get? d k' := by
  induction d with
  | nil => simp [erase]
  | cons p d ih =>
    obtain ⟨a, b⟩ := p
    unfold erase at ih ⊢
    by_cases h : a = k
    · subst h
      by_cases h' : a = k' <;> simp_all [get?_cons]
    · by_cases h' : k = k'
      · subst h'; simp_all [get?_cons]
      · by_cases h'' : a = k' <;> simp_all [get?_cons]

theorem nodup_keys_erase {d : Dict K V} (hd : (keys d).Nodup) (k : K) : (keys (erase d k)).Nodup := by
  rw [keys_erase]; exact hd.filter _

theorem erase_of_not_mem {d : Dict K V} {k : K} (h : k ∉ keys d) : erase d k = d := by
  unfold erase
  rw [List.filter_eq_self]
  intro p hp
  simp only [decide_eq_true_eq]
  rintro rfl
  exact h (List.mem_map.2 ⟨p, hp, rfl⟩)

@[simp] theorem keys_modify (d : Dict K V) (k : K) (f : V → V) : keys (modify d k f) = keys d := by
  simp only [keys, modify, List.map_map]
  apply List.map_congr_left
  intro p _; simp only [Function.comp]; split <;> rfl

theorem get?_modify (d : Dict K V) (k k' : K) (f : V → V) :
    get? (modify d k f) k' = if k = k' then (get? d k').map f else get? d k' := by
  induction d with
  | nil => simp [modify]
  | cons p d ih =>
    obtain ⟨a, b⟩ := p
    unfold modify at ih ⊢
    by_cases h : a = k
    · subst h
      by_cases h' : a = k' <;> simp_all [get?_cons]
    · by_cases h' : k = k'
      · subst h'; simp_all [get?_cons]
      · by_cases h'' : a = k' <;> simp_all [get?_cons]

omit [DecidableEq K] in
theorem keys_ofKeys (ks : List K) (f : K → V) : keys (ofKeys ks f) = ks := by
  induction ks with
  | nil => rfl
  | cons k ks ih => simp only [ofKeys, List.map_cons, keys_cons]; congr 1

theorem get?_ofKeys (ks : List K) (f : K → V) (k : K) :
    get? (ofKeys ks f) k = if k ∈ ks then some (f k) else none := by
  induction ks with
  | nil => simp [ofKeys]
  | cons a ks ih =>
    unfold ofKeys at ih ⊢
    by_cases h : a = k
    · subst h; simp [get?_cons]
    · have h' : ¬ k = a := fun e => h e.symm
      simp [get?_cons, h, ih, h']

theorem get?_update (d e : Dict K V) (k : K) (he : (keys e).Nodup) :
    get? (update d e) k = (get? e k).or (get? d k) := by
  induction e generalizing d with
  | nil => simp [update]
  | cons p e ih =>
    simp only [keys_cons, List.nodup_cons] at he
    have := ih (set d p.1 p.2) he.2
    simp only [update, List.foldl_cons] at this ⊢
    rw [this, get?_set, get?_cons]
    by_cases h : p.1 = k
    · subst h
      have h' := get?_eq_none_iff.2 he.1
      simp [h']
    · simp [h]

theorem nodup_keys_update {d : Dict K V} (hd : (keys d).Nodup) (e : Dict K V) : (keys (update d e)).Nodup := by
  induction e generalizing d with
  | nil => exact hd
  | cons p e ih => exact ih (nodup_keys_set hd _ _)

theorem mem_keys_update {d e : Dict K V} {k : K} : k ∈ keys (update d e) ↔ k ∈ keys d ∨ k ∈ keys e := by
  induction e generalizing d with
  | nil => simp [update]
  | cons p e ih =>
    have := @ih (set d p.1 p.2)
    simp only [update, List.foldl_cons] at this ⊢
    rw [this, mem_keys_set]; simp only [keys_cons, List.mem_cons]
    constructor
    · rintro ((h | h) | h) <;> simp [h]
    · rintro (h | h | h) <;> simp [h]

/-- Two dicts with the same keys in the same order and the same lookups are the same list. -/
theorem ext_of_keys {d e : Dict K V} (hk : keys d = keys e) (hd : (keys d).Nodup)
    (h : ∀ k ∈ keys d, get? d k = get? e k) : d = e := by
  induction d generalizing e with
  | nil =>
    cases e with
    | nil => rfl
    | cons _ _ => simp at hk
  | cons p d ih =>
    cases e with
    | nil => simp at hk
    | cons q e =>
      obtain ⟨a, b⟩ := p
      obtain ⟨a', b'⟩ := q
      simp only [keys_cons, List.cons.injEq] at hk
      obtain ⟨rfl, hk⟩ := hk
      simp only [keys_cons, List.nodup_cons] at hd
      have h1 := h a (by simp)
      simp only [get?_cons, if_true, Option.some.injEq] at h1
      subst h1
      congr 1
      apply ih hk hd.2
      intro k hk'
      have := h k (by simp [hk'])
      have hne : a ≠ k := by rintro rfl; exact hd.1 hk'
      simpa [get?_cons, hne] using this

end Dict
end Verif
