import Verif.Proofs.EvolutionTotal
/-! # Flags that do not change the dynamics -/

namespace Verif
section
variable {L A V I σ κ : Type} [DecidableEq L] [DecidableEq V] [DecidableEq κ]

/-- `cfg` with other persistence and compression flags. -/
def Config.withFlags (cfg : Config L A V I σ κ) (a b c : Bool) : Config L A V I σ κ :=
  { cfg with persistActs := a, persistNet := b, compression := c }

theorem vstep_flags (cfg : Config L A V I σ κ) (hp : cfg.past = []) (a b c : Bool) (ks : KeySpec L A V I κ) (inp : Inp I)
    (v : VLoop L A V σ κ) : vstep (cfg.withFlags a b c) ks inp v = vstep cfg ks inp v := by
  unfold vstep
  have h1 : ∀ obs t, pastV (cfg.withFlags a b c) obs t = .ok none := by
    intro obs t; unfold pastV Config.withFlags; rw [hp]; rfl
  have h2 : ∀ obs t, pastV cfg obs t = .ok none := by
    intro obs t; unfold pastV; rw [hp]; rfl
  rw [h1, h2]
  rfl

theorem vloop_flags (cfg : Config L A V I σ κ) (hp : cfg.past = []) (a b c : Bool) (ks : KeySpec L A V I κ) (fuel : Nat)
    (v : VLoop L A V σ κ) : vloop (cfg.withFlags a b c) ks fuel v = vloop cfg ks fuel v := by
  induction fuel generalizing v with
  | zero => rfl
  | succ fuel ih =>
    unfold vloop
    have : (cfg.withFlags a b c).input = cfg.input := rfl
    rw [this]
    cases callInput cfg.input v.hist.length v.acts v.net v.user with
    | error e => rfl
    | ok p =>
      obtain ⟨i, u⟩ := p
      cases i with
      | none => rfl
      | some inp =>
        simp only [vstep_flags cfg hp]
        cases vstep cfg ks inp { v with user := u } with
        | error e => rfl
        | ok v' => exact ih v'

theorem vevolve_flags (cfg : Config L A V I σ κ) (hp : cfg.past = []) (a b c : Bool) (fuel : Nat)
    (init : Option (Conds L V)) (n : Net L A) (u : σ) :
    vevolve fuel (cfg.withFlags a b c) init n u = vevolve fuel cfg init n u := by
  unfold vevolve
  have e1 : initDict (cfg.withFlags a b c) init = initDict cfg init := by cases init <;> rfl
  have e2 : ∀ d, vcheck (cfg.withFlags a b c) d n = vcheck cfg d n := fun _ => rfl
  have e3 : effectiveKey (cfg.withFlags a b c) n = effectiveKey cfg n := rfl
  have e4 : ∀ d, vinit (cfg.withFlags a b c) d n u = vinit cfg d n u := fun _ => rfl
  rw [e1, e2, e3, e4]
  cases vcheck cfg (initDict cfg init) n with
  | error e => rfl
  | ok x => exact vloop_flags cfg hp a b c _ _ _

/-! ## Prefixes -/

/-- With compression, a state holds no reference to a live network object. -/
def St.Snapshot (c : Bool) (st : St L A V) : Prop := st.compression = c ∧ (c = true → ∀ r, st.net ≠ some (.ref r))

theorem St.setActs_snapshot {cl : Codec L} {cv : Codec V} {s s' : St L A V} {d : Dict L V} {c : Bool}
    (hs : s.Snapshot c) (h : s.setActs cl cv d = .ok s') : s'.Snapshot c := by
  unfold St.setActs at h
  split at h
  · cases h; exact hs
  · split at h
    · split at h
      · cases h
      · cases h; exact hs
    · cases h; exact hs

theorem St.setNet_snapshot {cl : Codec L} {ca : Codec A} {s s' : St L A V} {r : Nat} {n : Net L A} {c : Bool}
    (hs : s.Snapshot c) (h : s.setNet cl ca r n = .ok s') : s'.Snapshot c := by
  unfold St.setNet at h
  split at h
  · cases h; exact hs
  · split at h
    · split at h
      · cases h
      · cases h; exact ⟨hs.1, fun _ r h => by simp at h⟩
    · rename_i hc
      cases h
      refine ⟨hs.1, fun hc' => ?_⟩
      exact absurd (hs.1.trans hc') hc

theorem storeActs_snapshot {cfg : Config L A V I σ κ} {s s' : St L A V} {d : Dict L V} {c : Bool}
    (hs : s.Snapshot c) (h : storeActs cfg s d = .ok s') : s'.Snapshot c := by
  unfold storeActs at h
  split at h
  · exact St.setActs_snapshot hs h
  · cases h; exact hs

theorem storeNet_snapshot {cfg : Config L A V I σ κ} {s s' : St L A V} {r : Nat} {w : World L A σ} {c : Bool}
    (hs : s.Snapshot c) (h : storeNet cfg s r w = .ok s') : s'.Snapshot c := by
  unfold storeNet at h
  split at h
  · exact St.setNet_snapshot hs h
  · cases h; exact hs

theorem St.new_snapshot (c : Bool) : (St.new c : St L A V).Snapshot c := ⟨rfl, fun _ r h => by simp [St.new] at h⟩

theorem evolveStep_traj {cfg : Config L A V I σ κ} {ks : KeySpec L A V I κ} {inp : Inp I} {s s' : Loop L A V σ κ}
    (h : evolveStep cfg ks inp s = .ok s') : ∃ st, s'.traj = s.traj ++ [st] ∧ st.Snapshot cfg.compression := by
  unfold evolveStep at h
  split at h
  · cases h
  · simp only at h
    split at h
    · split at h
      · cases h
      · split at h
        · cases h
        · rename_i h1
          split at h
          · cases h
          · split at h
            · cases h
            · rename_i h2
              cases h
              exact ⟨_, rfl, storeNet_snapshot (storeActs_snapshot (St.new_snapshot _) h1) h2⟩
    all_goals
      split at h
      · cases h
      · split at h
        · cases h
        · rename_i h1
          split at h
          · cases h
          · split at h
            · cases h
            · rename_i h2
              cases h
              exact ⟨_, rfl, storeActs_snapshot (storeNet_snapshot (St.new_snapshot _) h1) h2⟩

theorem evolveLoop_snapshot {cfg : Config L A V I σ κ} {ks : KeySpec L A V I κ} {fuel : Nat} {s s' : Loop L A V σ κ}
    (hs : ∀ st ∈ s.traj, st.Snapshot cfg.compression) (h : evolveLoop cfg ks fuel s = .ok s') :
    ∀ st ∈ s'.traj, st.Snapshot cfg.compression := by
  induction fuel generalizing s with
  | zero => cases h
  | succ fuel ih =>
    unfold evolveLoop at h
    split at h
    · cases h
    · cases h; exact hs
    · split at h
      · cases h
      · rename_i s1 hs1
        obtain ⟨st, hst, hsn⟩ := evolveStep_traj hs1
        refine ih ?_ h
        rw [hst]
        intro st' hst'
        rcases List.mem_append.1 hst' with h1 | h1
        · exact hs st' h1
        · simp only [List.mem_singleton] at h1; subst h1; exact hsn

theorem evolve_snapshot {cfg : Config L A V I σ κ} {f : Nat} {init : Option (Conds L V)} {r : Nat} {w : World L A σ}
    {res : Evolved L A V σ} (h : evolve f cfg init r w = .ok res) : ∀ st ∈ res.states, st.Snapshot cfg.compression := by
  unfold evolve at h
  split at h
  · cases h
  · rename_i s hi
    split at h
    · cases h
    · rename_i s' hl
      cases h
      refine evolveLoop_snapshot ?_ hl
      unfold evolveInit at hi
      split at hi
      · cases hi
      · split at hi
        · cases hi
        · split at hi
          · cases hi
          · rename_i s1 h1
            split at hi
            · cases hi
            · rename_i s2 h2
              cases hi
              intro st hst
              simp only [List.mem_singleton] at hst
              subst hst
              exact St.setNet_snapshot (St.setActs_snapshot (St.new_snapshot _) h1) h2

theorem evolveLoop_traj {cfg : Config L A V I σ κ} {ks : KeySpec L A V I κ} {fuel : Nat} {s s' : Loop L A V σ κ}
    (h : evolveLoop cfg ks fuel s = .ok s') : s.traj <+: s'.traj := by
  induction fuel generalizing s with
  | zero => cases h
  | succ fuel ih =>
    unfold evolveLoop at h
    split at h
    · cases h
    · simp only [Except.ok.injEq] at h; subst h; exact List.prefix_refl _
    · split at h
      · cases h
      · rename_i s1 hs
        obtain ⟨st, hst, _⟩ := evolveStep_traj hs
        refine List.IsPrefix.trans ?_ (ih h)
        rw [hst]
        exact List.prefix_append _ _

/-- The same configuration with another number of timesteps. -/
def Config.withT (cfg : Config L A V I σ κ) (T : Int) : Config L A V I σ κ := { cfg with input := .timesteps T }

theorem evolveStep_withT (cfg : Config L A V I σ κ) (T U : Int) (ks : KeySpec L A V I κ) (inp : Inp I)
    (s : Loop L A V σ κ) : evolveStep (cfg.withT T) ks inp s = evolveStep (cfg.withT U) ks inp s := by
  unfold evolveStep
  have e1 : ∀ traj t, pastActivities (cfg.withT T) traj t = pastActivities (cfg.withT U) traj t := by
    intro traj t
    unfold pastActivities
    have : ∀ k τ acc, pastLoop (cfg.withT T) traj k τ acc = pastLoop (cfg.withT U) traj k τ acc := by
      intro k
      induction k with
      | zero => intros; rfl
      | succ k ih =>
        intro τ acc
        unfold pastLoop
        have : pastEntry (cfg.withT T) traj τ = pastEntry (cfg.withT U) traj τ := rfl
        rw [this]
        cases pastEntry (cfg.withT U) traj τ with
        | error e => rfl
        | ok d => exact ih _ _
    rw [this]
    rfl
  rw [e1]
  rfl

/-- A longer run extends the trajectory of a shorter one. -/
theorem evolveLoop_prefix {cfg : Config L A V I σ κ} {ks : KeySpec L A V I κ} {T U : Int} (hTU : T ≤ U) {f f' : Nat}
    {s a b : Loop L A V σ κ} (ht : (s.t : Int) ≤ T) (ha : evolveLoop (cfg.withT T) ks f s = .ok a)
    (hb : evolveLoop (cfg.withT U) ks f' s = .ok b) : a.traj <+: b.traj := by
  induction f generalizing f' s with
  | zero => cases ha
  | succ f ih =>
    unfold evolveLoop at ha
    have hin : (cfg.withT T).input = .timesteps T := rfl
    by_cases hT : (s.t : Int) = T
    · simp only [hin, callInput, hT, if_true, Except.ok.injEq] at ha
      subst ha
      exact evolveLoop_traj hb
    · cases f' with
      | zero => cases hb
      | succ f' =>
        unfold evolveLoop at hb
        have hin' : (cfg.withT U).input = .timesteps U := rfl
        have hU : ¬ (s.t : Int) = U := by omega
        simp only [hin, hin', callInput, hT, hU, if_false] at ha hb
        rw [evolveStep_withT cfg T U] at ha
        cases hs : evolveStep (cfg.withT U) ks .timestep s with
        | error e => simp [hs] at ha
        | ok s1 =>
          simp only [hs] at ha hb
          have := evolveStep_t hs
          exact ih (by omega) ha hb

theorem evolve_prefix {cfg : Config L A V I σ κ} {T U : Nat} (hT1 : 1 ≤ T) (hTU : T ≤ U) {f f' : Nat}
    {init : Option (Conds L V)} {r : Nat} {w : World L A σ} {res res' : Evolved L A V σ}
    (h : evolve f (cfg.withT T) init r w = .ok res) (h' : evolve f' (cfg.withT U) init r w = .ok res') :
    res.states <+: res'.states := by
  unfold evolve at h h'
  have e1 : initDict (cfg.withT T) init = initDict cfg init := by cases init <;> rfl
  have e2 : initDict (cfg.withT U) init = initDict cfg init := by cases init <;> rfl
  have e3 : evolveInit (cfg.withT T) (initDict cfg init) r w = evolveInit (cfg.withT U) (initDict cfg init) r w := rfl
  have e4 : effectiveKey (cfg.withT T) (w.deref r) = effectiveKey (cfg.withT U) (w.deref r) := rfl
  rw [e1, e3, e4] at h
  rw [e2] at h'
  cases hi : evolveInit (cfg.withT U) (initDict cfg init) r w with
  | error e => simp [hi] at h
  | ok s =>
    simp only [hi] at h h'
    have ht : s.t = 1 := by
      unfold evolveInit at hi
      split at hi
      · cases hi
      · split at hi
        · cases hi
        · split at hi
          · cases hi
          · split at hi
            · cases hi
            · simp only [Except.ok.injEq] at hi
              rw [← hi]
    cases ha : evolveLoop (cfg.withT T) (effectiveKey (cfg.withT U) (w.deref r)) f s with
    | error e => simp [ha] at h
    | ok a =>
      cases hb : evolveLoop (cfg.withT U) (effectiveKey (cfg.withT U) (w.deref r)) f' s with
      | error e => simp [hb] at h'
      | ok b =>
        simp only [ha, hb, Except.ok.injEq] at h h'
        subst h h'
        exact evolveLoop_prefix (by omega) (by omega) ha hb

end
end Verif
