import Verif.Proofs.CARun
import Verif.Proofs.Memo
import Verif.Proofs.Network2
import Verif.Spec.Dynamics
/-! # Runs of a stateless rule on the network of a multigraph -/

namespace Verif
open Spec MG
section
variable {L A V I σ κ : Type} [DecidableEq L] [DecidableEq V] [DecidableEq κ]

omit [DecidableEq V] [DecidableEq κ] in
/-- What a finished explicit run shows, for any labels. -/
theorem shows_on {cfg : Config L A V I σ κ} {T : Nat} (hpers : cfg.persistActs = true) (hcomp : cfg.compression = false) {N : Net L A}
    (hne : N.labels ≠ []) {d : Dict L V} (hlen : d.length = N.labels.length) {f : Nat → L → V} (h0 : ∀ x ∈ N.labels, d.get? x = some (f 0 x))
    {res : Evolved L A V σ} (ho : Observes cfg res ((List.range T).map (fun s => (plainActs N.labels d f s, N)))) :
    ShowsOn cfg res T N.labels f := by
  refine ⟨by rw [ho.len]; simp, ?_⟩
  intro t ht
  have hlen' : (plainActs N.labels d f t).length = N.labels.length := by
    unfold plainActs
    split
    · exact hlen
    · simp only [Dict.ofKeys, List.length_map]
  refine ⟨plainActs N.labels d f t, ?_, hlen', fun x hx => get?_plainActs h0 t hx⟩
  rw [ho.acts]
  simp only [List.getElem?_map, List.getElem?_range ht, Option.map_some, Option.bind_some, obsActs]
  rw [if_pos, hcomp]
  · simp
  · refine ⟨Or.inr hpers, ?_⟩
    cases hp : plainActs N.labels d f t with
    | nil =>
      rw [hp] at hlen'
      have := List.length_pos_iff.2 hne
      simp at hlen'
      omega
    | cons a l => rfl

/-- A rule that follows the trajectory `f` on a network without rotation system, with or without memoization. -/
theorem mg_run {cfg : Config L A V I σ κ} {G : NodeCtx L A V I → Except Err V} {T : Nat} (h : cfg.Ordinary G T) (hT : 1 ≤ T) {g : MG L A}
    (hv : g.Valid) (hrot : g.rot = none) (hne : g.labels ≠ []) {init : Option (Conds L V)} (hlen : (initDict cfg init).length = g.labels.length)
    {f : Nat → L → V} (h0 : ∀ x ∈ g.labels, (initDict cfg init).get? x = some (f 0 x))
    (hf : ∀ t, t + 1 < T → ∀ x ∈ g.labels, ∀ c : NodeCtx L A V I, c.node = x → c.t = t + 1 → c.current = f t x →
      (∀ y ∈ g.labels, c.activities.get y = .ok (f t y)) → c.neighbours = sources g.edges x → c.neighbourActs = (sources g.edges x).map (f t) →
      c.connections = incomingOf g.edges x → G c = .ok (f (t + 1) x))
    (hk : cfg.memoize = true → ∀ t t' x x', t + 1 < T → t' + 1 < T → x ∈ g.labels → x' ∈ g.labels →
      ((sources g.edges x).map (f t)).Perm ((sources g.edges x').map (f t')) → f (t + 1) x = f (t' + 1) x')
    {r : Nat} {w : World L A σ} (hr : w.heap[r]? = some (ofMG g)) {fuel : Nat} (hfu : T ≤ fuel) :
    ∃ res, evolve fuel cfg init r w = .ok res ∧ ShowsOn cfg res T g.labels f := by
  have hl : (ofMG g).labels = g.labels := labels_ofMG g
  have hpk : cfg.PackOk := by intro hc; rw [h.compression] at hc; cases hc
  have hkey : effectiveKey cfg (ofMG g) = .unordered := by
    unfold effectiveKey
    rw [h.key]
    show (match g.rot with | none => _ | some _ => _) = _
    rw [hrot]
  have hinc : ∀ x ∈ g.labels, ((ofMG g).nodes.get? x).map (fun nd => nd.incoming) = some (incomingOf g.edges x) := by
    intro x hx
    obtain ⟨a, _, h2⟩ := get?_ofMG_of_mem hx
    rw [h2]
    rfl
  obtain ⟨res, ext, e1, _, e3⟩ := evolve_pure h.rule h.pert h.top hpk (n := ofMG g) (by rw [hl]; exact hv.nodup) (nb := sources g.edges) (by
      intro x hx
      rw [hl] at hx
      refine ⟨?_, ?_⟩
      · unfold specNbrs
        have : (ofMG g).rotation = none := hrot
        rw [this]
        simp only
        obtain ⟨a, _, h2⟩ := get?_ofMG_of_mem hx
        rw [h2]
        simp only [Option.map_some, nodeOf, keys_incomingOf]
      · intro y hy
        rw [hl]
        obtain ⟨e, he, h1, _⟩ := mem_sources.1 hy
        rw [← h1]
        exact (hv.closed e he).1)
    (init := init) (f := f) (by rw [hlen, ← hl]; simp [Net.labels, Net.size, Dict.keys]) (by rw [hl]; exact h0) (T := T) (by
      intro t ht x hx
      rw [hl] at hx
      refine hf t ht x hx _ rfl rfl rfl ?_ rfl rfl ?_
      · intro y hy
        rw [Dict.get_eq_ok_iff]
        exact get?_plainActs (by rw [hl]; exact h0) t (by rw [hl]; exact hy)
      · simp only [plainCtx, runCtx]
        rw [hinc x hx]
        rfl) (by
      intro hm t t' x x' ht ht' hx hx' heq
      rw [hl] at hx hx'
      refine hk hm t t' x x' ht ht' hx hx' ?_
      rw [hkey] at heq
      refine (counts_eq_iff_perm _ _).1 ?_
      simpa only [toKey, MemoKey.eq, plainCtx, runCtx] using heq)
    hT h.input hr hfu
  refine ⟨res, e1, ?_⟩
  have := shows_on h.persist h.compression (N := ofMG g) (by rw [hl]; exact hne) (by rw [hl]; exact hlen) (by rw [hl]; exact h0) e3
  rwa [hl] at this

end
end Verif
