import Verif.Proofs.RunPure
import Verif.Proofs.Copy
import Verif.Spec.CA
/-! # Runs on networks labelled `0 .. n-1` -/

namespace Verif
section
variable {A V I σ κ : Type} [DecidableEq V] [DecidableEq κ]

theorem Config.Ordinary.packOk {L : Type} {cfg : Config L A V I σ κ} {G T} (h : cfg.Ordinary G T) : cfg.PackOk := by
  intro hc; rw [h.compression] at hc; cases hc

omit [DecidableEq V] [DecidableEq κ] in
/-- Initial conditions given as a list, for natural labels. -/
theorem initDict_list {cfg : Config Nat A V I σ κ} (hnat : cfg.natLabel = id) (vs : List V) :
    (initDict cfg (some (.list vs))).length = vs.length ∧ (initDict cfg (some (.list vs))).keys = List.range vs.length ∧
      ∀ x, x < vs.length → (initDict cfg (some (.list vs))).get? x = vs[x]? := by
  have hkeys : (vs.zipIdx.map (fun p => (cfg.natLabel p.2, p.1))).map Prod.fst = List.range vs.length := by
    rw [List.map_map, hnat]
    have : (Prod.fst ∘ fun p : V × Nat => (id p.2, p.1)) = Prod.snd := rfl
    rw [this, List.zipIdx_map_snd, List.range_eq_range']
  have hnd : ((vs.zipIdx.map (fun p => (cfg.natLabel p.2, p.1))).map Prod.fst).Nodup := by
    rw [hkeys]; exact List.nodup_range
  simp only [initDict, Conds.toDict, ofPairs_nodup _ hnd]
  refine ⟨by simp, hkeys, ?_⟩
  intro i hi
  rw [List.getElem?_eq_getElem hi]
  apply Dict.get?_of_mem hnd
  rw [List.mem_map]
  refine ⟨(vs[i], i), ?_, by rw [hnat]; rfl⟩
  rw [List.mem_zipIdx_iff_getElem?]
  simp

/-- What a finished explicit run shows. -/
theorem shows_plain_of {cfg : Config Nat A V I σ κ} {T : Nat} (hpers : cfg.persistActs = true)
    (hcomp : cfg.compression = false) {N : Net Nat A} {n : Nat} (hn1 : 1 ≤ n)
    (hl : N.labels.Perm (List.range n)) {d : Dict Nat V} (hlen : d.length = n) {f : Nat → Nat → V}
    (h0 : ∀ x, x < n → d.get? x = some (f 0 x)) {res : Evolved Nat A V σ}
    (ho : Observes cfg res ((List.range T).map (fun s => (plainActs N.labels d f s, N)))) : ShowsRun cfg res T n f := by
  refine ⟨by rw [ho.len]; simp, ?_⟩
  intro t ht
  have hlen' : (plainActs N.labels d f t).length = n := by
    unfold plainActs
    split
    · exact hlen
    · simp only [Dict.ofKeys, List.length_map, hl.length_eq, List.length_range]
  refine ⟨plainActs N.labels d f t, ?_, hlen', ?_⟩
  · rw [ho.acts]
    simp only [List.getElem?_map, List.getElem?_range ht, Option.map_some, Option.bind_some, obsActs]
    rw [if_pos, hcomp]
    · simp
    · refine ⟨Or.inr hpers, ?_⟩
      cases hp : plainActs N.labels d f t with
      | nil => rw [hp] at hlen'; simp at hlen'; omega
      | cons a l => rfl
  · intro x hx
    exact get?_plainActs (fun y hy => h0 y (by simpa using hl.mem_iff.1 hy)) t (hl.mem_iff.2 (by simpa using hx))

theorem shows_plain {cfg : Config Nat A V I σ κ} {G T} (h : cfg.Ordinary G T) {N : Net Nat A} {n : Nat} (hn1 : 1 ≤ n)
    (hl : N.labels.Perm (List.range n)) {d : Dict Nat V} (hlen : d.length = n) {f : Nat → Nat → V}
    (h0 : ∀ x, x < n → d.get? x = some (f 0 x)) {res : Evolved Nat A V σ}
    (ho : Observes cfg res ((List.range T).map (fun s => (plainActs N.labels d f s, N)))) : ShowsRun cfg res T n f :=
  shows_plain_of h.persist h.compression hn1 hl hlen h0 ho

/-- Run of a stateless rule on a network labelled `0 .. n-1`. -/
theorem ca_run {cfg : Config Nat A V I σ κ} {G T} (h : cfg.Ordinary G T) (hT : 1 ≤ T) {N : Net Nat A} {n : Nat}
    (hn1 : 1 ≤ n) (hl : N.labels.Perm (List.range n)) {nb : Nat → List Nat}
    (hnb : ∀ x, x < n → specNbrs N x = some (nb x) ∧ ∀ y ∈ nb x, y < n) {init : Option (Conds Nat V)}
    (hlen : (initDict cfg init).length = n) {f : Nat → Nat → V}
    (h0 : ∀ x, x < n → (initDict cfg init).get? x = some (f 0 x))
    (hf : ∀ t, t + 1 < T → ∀ x, x < n →
      G (plainCtx cfg N nb (initDict cfg init) f t x) = .ok (f (t + 1) x))
    (hk : cfg.memoize = true → N.rotation.isSome = true ∧ ∀ t t' x x', t + 1 < T → t' + 1 < T → x < n → x' < n →
      (nb x).map (f t) = (nb x').map (f t') → f (t + 1) x = f (t' + 1) x')
    {r : Nat} {w : World Nat A σ} (hr : w.heap[r]? = some N) {fuel : Nat} (hfu : T ≤ fuel) :
    ∃ res, evolve fuel cfg init r w = .ok res ∧ ShowsRun cfg res T n f := by
  have hmem : ∀ x, x ∈ N.labels ↔ x < n := fun x => by rw [hl.mem_iff, List.mem_range]
  obtain ⟨res, ext, e1, e2, e3⟩ := evolve_pure h.rule h.pert h.top h.packOk (hl.nodup_iff.2 List.nodup_range)
    (nb := nb) (fun x hx => ⟨(hnb x ((hmem x).1 hx)).1, fun y hy => (hmem y).2 ((hnb x ((hmem x).1 hx)).2 y hy)⟩)
    (init := init) (f := f) (by
      rw [hlen]
      have := hl.length_eq
      simp [Net.labels, Dict.keys, Net.size] at this ⊢
      omega)
    (fun x hx => h0 x ((hmem x).1 hx)) (fun t ht x hx => hf t ht x ((hmem x).1 hx)) (by
      intro hm t t' x x' ht ht' hx hx' hkey
      obtain ⟨hrot, hag⟩ := hk hm
      refine hag t t' x x' ht ht' ((hmem x).1 hx) ((hmem x').1 hx') ?_
      have : effectiveKey cfg N = .ordered := by
        unfold effectiveKey
        rw [h.key]
        cases hro : N.rotation with
        | none => rw [hro] at hrot; cases hrot
        | some rs => rfl
      rw [this] at hkey
      simpa [toKey, MemoKey.eq, plainCtx, runCtx] using hkey)
    hT h.input hr hfu
  exact ⟨res, e1, shows_plain h hn1 hl hlen h0 e3⟩

end
end Verif
