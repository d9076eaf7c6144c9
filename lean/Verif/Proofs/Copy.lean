import Verif.Proofs.EvolutionFlags
import Verif.Proofs.NetworkQueries
/-! # `copy` on exactly packable content -/

namespace Verif
section
variable {L A V : Type} [DecidableEq L]

/-- `unpackb (packb x)` returns `x`. -/
def Codec.ExactAt {T : Type} (c : Codec T) (x : T) : Prop := c.pack x = .ok () ∧ c.unpack x = x

theorem packAll_ok_of {T : Type} {f : T → Except Err Unit} {l : List T} (h : ∀ x ∈ l, f x = .ok ()) :
    packAll f l = .ok () := by
  induction l with
  | nil => rfl
  | cons x l ih =>
    simp only [packAll, h x (by simp)]
    exact ih (fun y hy => h y (by simp [hy]))

theorem ofPairs_nodup {K W : Type} [DecidableEq K] (ps : List (K × W)) (h : (ps.map Prod.fst).Nodup) :
    Dict.ofPairs ps = ps := by
  have : ∀ (acc : Dict K W), (acc.keys ++ ps.map Prod.fst).Nodup →
      ps.foldl (fun d p => d.set p.1 p.2) acc = acc ++ ps := by
    clear h
    induction ps with
    | nil => intro acc _; simp
    | cons p ps ih =>
      intro acc hn
      have hp : p.1 ∉ acc.keys := by
        rw [List.nodup_append] at hn
        exact fun hm => hn.2.2 p.1 hm p.1 (by simp) rfl
      rw [List.foldl_cons, Dict.set_of_not_mem hp, ih]
      · simp
      · simpa [Dict.keys_append] using hn
  have h2 := this [] (by simpa using h)
  unfold Dict.ofPairs
  rw [h2]; rfl

theorem unpackAttr_exact {ca : Codec A} {a : Attr A} (h : ∀ kv ∈ a, ca.ExactAt kv.2) : unpackAttr ca a = a := by
  unfold unpackAttr
  conv => rhs; rw [← List.map_id a]
  apply List.map_congr_left
  intro kv hkv
  obtain ⟨k, v⟩ := kv
  simp [(h _ hkv).2]

/-- Content of a node that survives packing. -/
structure NodeExact (cl : Codec L) (ca : Codec A) (d : Node L A) : Prop where
  nodup : d.incoming.keys.Nodup
  src : ∀ q ∈ d.incoming, cl.ExactAt q.1
  att : ∀ q ∈ d.incoming, ∀ a ∈ q.2, ∀ kv ∈ a, ca.ExactAt kv.2
  out : ∀ x ∈ d.outgoing, cl.ExactAt x
  attrs : ∀ kv ∈ d.attrs, ca.ExactAt kv.2

theorem NodeExact.pack {cl : Codec L} {ca : Codec A} {d : Node L A} (h : NodeExact cl ca d) :
    packNode cl ca d = .ok () := by
  unfold packNode
  have e1 : packAll (packPair cl.pack (packAll (packAttr ca))) d.incoming = .ok () := by
    refine packAll_ok_of (fun q hq => ?_)
    simp only [packPair, (h.src q hq).1]
    exact packAll_ok_of (fun a ha => packAll_ok_of (fun kv hkv => (h.att q hq a ha kv hkv).1))
  have e2 : packAll cl.pack d.outgoing = .ok () := packAll_ok_of (fun x hx => (h.out x hx).1)
  rw [e1, e2]
  exact packAll_ok_of (fun kv hkv => (h.attrs kv hkv).1)

theorem NodeExact.unpack {cl : Codec L} {ca : Codec A} {d : Node L A} (h : NodeExact cl ca d) :
    unpackNode cl ca d = d := by
  unfold unpackNode
  have e1 : d.incoming.map (fun p => (cl.unpack p.1, p.2.map (unpackAttr ca))) = d.incoming := by
    conv => rhs; rw [← List.map_id d.incoming]
    apply List.map_congr_left
    intro q hq
    obtain ⟨x, l⟩ := q
    simp only [id, Prod.mk.injEq]
    refine ⟨(h.src _ hq).2, ?_⟩
    conv => rhs; rw [← List.map_id l]
    apply List.map_congr_left
    intro a ha
    exact unpackAttr_exact (h.att _ hq a ha)
  have e2 : d.outgoing.map cl.unpack = d.outgoing := by
    conv => rhs; rw [← List.map_id d.outgoing]
    exact List.map_congr_left (fun x hx => (h.out x hx).2)
  rw [e1, e2, unpackAttr_exact h.attrs, ofPairs_nodup _ h.nodup]

theorem copy_exact {cl : Codec L} {ca : Codec A} {n : Net L A} (hn : n.labels.Nodup)
    (hl : ∀ x ∈ n.labels, cl.ExactAt x) (hd : ∀ p ∈ n.nodes, NodeExact cl ca p.2) :
    n.copy cl ca = .ok ⟨n.nodes, none⟩ := by
  unfold Net.copy
  have e1 : n.pack cl ca = .ok () := by
    refine packAll_ok_of (fun p hp => ?_)
    have : p.1 ∈ n.labels := List.mem_map_of_mem hp
    simp only [packPair, (hl _ this).1]
    exact (hd p hp).pack
  rw [e1]
  simp only [Net.unpack]
  have e2 : n.nodes.map (fun p => (cl.unpack p.1, unpackNode cl ca p.2)) = n.nodes := by
    conv => rhs; rw [← List.map_id n.nodes]
    apply List.map_congr_left
    intro p hp
    have : p.1 ∈ n.labels := List.mem_map_of_mem hp
    obtain ⟨x, d⟩ := p
    simp only [id, Prod.mk.injEq]
    exact ⟨(hl _ this).2, (hd _ hp).unpack⟩
  rw [e2, ofPairs_nodup _ hn]

theorem mem_of_mem_between {es : List (Edge L A)} {i j : L} {a : Attr A} (h : a ∈ MG.between es i j) :
    ⟨i, j, a⟩ ∈ es := by
  simp only [MG.between, List.mem_map, List.mem_filter, Bool.and_eq_true, decide_eq_true_eq] at h
  obtain ⟨e, ⟨he, rfl, rfl⟩, rfl⟩ := h
  exact he

/-- `copy` of a network built through the API. -/
theorem copy_ofMG {cl : Codec L} {ca : Codec A} {g : MG L A} (hg : g.Valid) (hl : ∀ x ∈ g.labels, cl.ExactAt x)
    (he : ∀ e ∈ g.edges, ∀ kv ∈ e.attr, ca.ExactAt kv.2) (ha : ∀ p ∈ g.nodes, ∀ kv ∈ p.2, ca.ExactAt kv.2) :
    (ofMG g).copy cl ca = .ok (ofMG { g with rot := none }) := by
  rw [copy_exact (by rw [labels_ofMG]; exact hg.nodup) (by rw [labels_ofMG]; exact hl)]
  · rfl
  · intro p hp
    simp only [ofMG, List.mem_map] at hp
    obtain ⟨q, hq, rfl⟩ := hp
    refine ⟨?_, ?_, ?_, ?_, ha q hq⟩
    · simp only [nodeOf]; rw [keys_incomingOf]; exact nodup_sources _ _
    · intro r hr
      have : r.1 ∈ (incomingOf g.edges q.1).keys := List.mem_map_of_mem hr
      rw [keys_incomingOf] at this
      exact hl _ (mem_labels_of_mem_sources hg this).1
    · intro r hr a har kv hkv
      simp only [nodeOf, incomingOf, Dict.ofKeys, List.mem_map] at hr
      obtain ⟨i, hi, rfl⟩ := hr
      exact he _ (mem_of_mem_between har) kv hkv
    · intro x hx
      simp only [nodeOf, List.mem_map, List.mem_filter] at hx
      obtain ⟨e, ⟨he', _⟩, rfl⟩ := hx
      exact hl _ (hg.closed e he').2

end
end Verif
