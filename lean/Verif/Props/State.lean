import Verif.Proofs.Copy
/-! # Reading back a `State`: C80 -/

namespace Verif
section
variable {L A V : Type} [DecidableEq L]

theorem unpackActs_exact {cl : Codec L} {cv : Codec V} {d : Dict L V} (hn : d.keys.Nodup)
    (he : ∀ p ∈ d, cl.ExactAt p.1 ∧ cv.ExactAt p.2) : packActs cl cv d = .ok () ∧ unpackActs cl cv d = d := by
  constructor
  · refine packAll_ok_of (fun p hp => ?_)
    simp only [packPair, (he p hp).1.1]
    exact (he p hp).2.1
  · unfold unpackActs
    have : d.map (fun p => (cl.unpack p.1, cv.unpack p.2)) = d := by
      conv => rhs; rw [← List.map_id d]
      apply List.map_congr_left
      intro p hp
      obtain ⟨k, v⟩ := p
      simp only [id, Prod.mk.injEq]
      exact ⟨(he _ hp).1.2, (he _ hp).2.2⟩
    rw [this]
    exact ofPairs_nodup d hn

/-- **C80** (full claim, false: `State.activities` and `State.network` return the value last assigned, whatever it was).
Activities: every non-empty dict (with compression: whose labels and activities survive packing) that is assigned to a state
is read back, whatever the state held before, and the network of the state is not touched.  Missing: the empty dict, see
`C80_empty_activities`. -/
theorem C80_activities_partial (cl : Codec L) (cv : Codec V) (s : St L A V) (d : Dict L V) (hd : d ≠ [])
    (hn : d.keys.Nodup) (he : s.compression = true → ∀ p ∈ d, cl.ExactAt p.1 ∧ cv.ExactAt p.2) :
    ∃ s', s.setActs cl cv d = .ok s' ∧ s'.getActs cl cv = some d ∧ s'.net = s.net ∧ s'.compression = s.compression := by
  have hne : d.isEmpty = false := by cases d with
    | nil => exact absurd rfl hd
    | cons => rfl
  unfold St.setActs
  rw [hne]
  cases hc : s.compression with
  | false => exact ⟨_, rfl, by simp [St.getActs], rfl, rfl⟩
  | true =>
    obtain ⟨h1, h2⟩ := unpackActs_exact hn (he hc)
    simp only [h1]
    exact ⟨_, rfl, by simp [St.getActs, h2], rfl, rfl⟩

/-- **C80.** Networks: every non-empty network (with compression: whose content survives packing) that is assigned to a state
is read back.  With compression the state keeps the content at the time of the assignment, without the rotation system,
whatever happens to the object afterwards; without compression it returns the object, whatever its content is by then, but
`None` if the object has become empty. -/
theorem C80_network_partial (cl : Codec L) (ca : Codec A) (s : St L A V) (r : Nat) (n : Net L A) (hne : n.nodes ≠ [])
    (hn : n.labels.Nodup)
    (he : s.compression = true → (∀ x ∈ n.labels, cl.ExactAt x) ∧ ∀ p ∈ n.nodes, NodeExact cl ca p.2) :
    ∃ s', s.setNet cl ca r n = .ok s' ∧ s'.acts = s.acts ∧ s'.compression = s.compression ∧
      (s.compression = true → ∀ heap, s'.getNet cl ca heap = some ⟨n.nodes, none⟩) ∧
      (s.compression = false → ∀ (heap : List (Net L A)) (now : Net L A), heap[r]? = some now →
        (now.nodes ≠ [] → s'.getNet cl ca heap = some now) ∧ (now.nodes = [] → s'.getNet cl ca heap = none)) := by
  have hne' : n.nodes.isEmpty = false := by cases h : n.nodes with
    | nil => exact absurd h hne
    | cons => rfl
  unfold St.setNet
  rw [hne']
  cases hc : s.compression with
  | false =>
    refine ⟨_, rfl, rfl, rfl, ?_, ?_⟩
    · intro h; cases h
    · intro _ heap now hnow
      constructor
      · intro h
        have : now.nodes.isEmpty = false := by cases h' : now.nodes with
          | nil => exact absurd h' h
          | cons => rfl
        simp [St.getNet, hnow, this]
      · intro h
        simp [St.getNet, hnow, h]
  | true =>
    have hx := copy_exact hn (he hc).1 (he hc).2
    unfold Net.copy at hx
    cases hp : n.pack cl ca with
    | error e => rw [hp] at hx; cases hx
    | ok u =>
      rw [hp] at hx
      cases u
      refine ⟨_, rfl, rfl, rfl, ?_, ?_⟩
      · intro _ heap
        simp only [St.getNet]
        rw [Except.ok.inj hx]
      · intro h; cases h

omit [DecidableEq L] in
/-- **C80 is false**: assigning the empty dict leaves the previous activities in place. -/
theorem C80_empty_activities (cl : Codec L) (cv : Codec V) (s : St L A V) :
    s.setActs cl cv [] = .ok s := rfl

omit [DecidableEq L] in
/-- **C80 is false** for networks too: assigning an empty network leaves the previous network in place. -/
theorem C80_empty_network (cl : Codec L) (ca : Codec A) (s : St L A V) (r : Nat) (rot : Option (Dict L (List L))) :
    s.setNet cl ca r ⟨[], rot⟩ = .ok s := rfl

/-- A new state has neither. -/
theorem C80_new (cl : Codec L) (ca : Codec A) (cv : Codec V) (c : Bool) (heap : List (Net L A)) :
    (St.new c : St L A V).getActs cl cv = none ∧ (St.new c : St L A V).getNet cl ca heap = none := ⟨rfl, rfl⟩

end

/-- Integers are packed if they have at most 64 bits; the dict below meets the hypotheses with compression. -/
example : let c : Codec Int := ⟨fun x => if x < 2 ^ 64 then .ok () else .error (.exception "OverflowError"), id⟩
    (St.new true : St Int Int Int).compression = true ∧ ([(0, 5), (1, 7)] : Dict Int Int) ≠ [] ∧
      (Dict.keys ([(0, 5), (1, 7)] : Dict Int Int)).Nodup ∧ ∀ p ∈ ([(0, 5), (1, 7)] : Dict Int Int), c.ExactAt p.1 ∧ c.ExactAt p.2 := by
  refine ⟨rfl, by decide, by decide, ?_⟩
  unfold Codec.ExactAt
  decide

/-- Activities `{0: 5}` are still there after assigning `{}`. -/
example : let c : Codec Nat := ⟨fun _ => .ok (), id⟩
    ((St.new false : St Nat Nat Nat).setActs c c [(0, 5)]).bind (fun s => (s.setActs c c []).map (fun s => s.getActs c c)) =
      .ok (some [(0, 5)]) := by decide

/-- A network assigned without compression and emptied afterwards reads as `None`. -/
example : let c : Codec Nat := ⟨fun _ => .ok (), id⟩
    let n : Net Nat Nat := ⟨[(0, ⟨0, 0, [], [], []⟩)], none⟩
    ((St.new false : St Nat Nat Nat).setNet c c 0 n).map (fun s =>
      ((s.getNet c c [n]).isSome, (s.getNet c c [Net.empty]).isSome)) = .ok (true, false) := by decide

end Verif
