import Verif.Model.State
/-! # Model of `evolve` (`/repo/netomaton/evolution.py`)

Type parameters: `L` node labels, `A` attribute values, `V` activities, `I` input items, `σ` the state that the user's
callables may keep between invocations, `κ` user-defined memoization keys.

`Network` objects live in a heap (a list, addressed by position), because `evolve` stores references in the trajectory
and topology rules may mutate the network they are given.  Activity dicts are not mutated after a timestep by any
modelled code and are plain values; rules are assumed not to mutate the dicts in their context. -/

namespace Verif

/-- `NodeContext` (`evolution.py:8-43`).  The lists `added_nodes` and `removed_nodes` are part of the rule's result
(`RuleOut`).  An entry of `past` is `none` when the state of that timestep holds no activities. -/
structure NodeCtx (L A V I : Type) where
  node : L
  t : Nat
  activities : Dict L V
  neighbours : List L
  neighbourActs : List V
  connections : Dict L (List (Attr A))
  current : V
  past : Option (List (Option (Dict L V)))
  input : Option I

/-- A request made with `ctx.add_node(state, outgoing_links, label)` (`evolution.py:49-50`). -/
structure AddReq (L A V : Type) where
  state : V
  links : Dict L (Attr A)
  label : L

/-- What one invocation of an activity rule produces: the new activity, and the requests it made on its context
(`evolution.py:42-53, 276-282`). -/
structure RuleOut (L A V : Type) where
  value : V
  added : List (AddReq L A V)
  removed : List L

/-- `PerturbationContext` (`evolution.py:81-92`). -/
structure PertCtx (L V I : Type) where
  node : L
  activity : V
  t : Nat
  input : Option I

/-- `TopologyContext` (`evolution.py:68-78`), with the content of the network object. -/
structure TopCtx (L A V : Type) where
  net : Net L A
  activities : Dict L V
  t : Nat

/-- What a topology rule returns (`evolution.py:375`): the object it was given, a new object, or `None`. -/
inductive TopRet (L A : Type) where
  | same
  | fresh (n : Net L A)
  | none

/-- Effect of a topology rule: the content it leaves in the object it was given, and what it returns
(`evolution.py:375`). -/
structure TopOut (L A : Type) where
  given : Net L A
  ret : TopRet L A

/-- One value of the input (`evolution.py:269, 424-441`): the marker `"__timestep__"`, a sequence (one item per node),
or any other object.  Items may be `None`. -/
inductive Inp (I : Type) where
  | timestep
  | seq (xs : List (Option I))
  | scalar (x : I)

/-- Conditions given as a dict or as a list (`evolution.py:166-168, 392-393`). -/
inductive Conds (L V : Type) where
  | dict (d : Dict L V)
  | list (vs : List V)

/-- The `timesteps` / `input` arguments (`evolution.py:407-417`). -/
inductive InputSrc (L A V I σ : Type) where
  | neither
  | timesteps (n : Int)
  | list (items : List (Option (Inp I)))
  | fn (f : Nat → Dict L V → Net L A → σ → Except Err (Option (Inp I) × σ))

/-- `UpdateOrder` (`evolution.py:95-98`). -/
inductive UpdateOrder where
  | activitiesFirst
  | topologyFirst
  | synchronous
  deriving DecidableEq

/-- `memoization_key` (`evolution.py:183-184, 314-354`): a user key, the ordered or the unordered default key. -/
inductive KeySpec (L A V I κ : Type) where
  | ordered
  | unordered
  | user (f : NodeCtx L A V I → κ)

/-- A memoization key: `tuple(acts)`, `frozenset(Counter(acts).items())` given by its items, or a user key
(`evolution.py:334, 354`). -/
inductive MemoKey (V κ : Type) where
  | tuple (vs : List V)
  | counts (items : List (V × Nat))
  | user (k : κ)

/-- Arguments of `evolve` (`evolution.py:101-103`) and the environment it relies on.
`natLabel i` is the label that `enumerate` produces (`evolution.py:168, 393`); `labelIdx x` is the label used as list
index (`evolution.py:269`, `none`: not an integer); `actAttr` embeds an activity into attribute values
(`evolution.py:368`); `labelCodec`, `attrCodec`, `valCodec` describe msgpack. -/
structure Config (L A V I σ κ : Type) where
  rule : Option (NodeCtx L A V I → σ → Except Err (RuleOut L A V × σ))
  input : InputSrc L A V I σ
  topology : Option (TopCtx L A V → σ → Except Err (TopOut L A × σ))
  perturbation : Option (PertCtx L V I → σ → Except Err (V × σ))
  past : List (Conds L V)
  order : UpdateOrder
  copyNetwork : Bool
  compression : Bool
  persistActs : Bool
  persistNet : Bool
  memoize : Bool
  key : Option (KeySpec L A V I κ)
  natLabel : Nat → L
  labelIdx : L → Option Int
  actAttr : V → A
  labelCodec : Codec L
  attrCodec : Codec A
  valCodec : Codec V

section
variable {L A V I σ κ : Type} [DecidableEq L] [DecidableEq V] [DecidableEq κ]

/-- `{i: v for i, v in enumerate(vs)}` or the dict itself (`evolution.py:166-168, 392-393`). -/
def Conds.toDict (natLabel : Nat → L) : Conds L V → Dict L V
  | .dict d => d
  | .list vs => Dict.ofPairs ((vs.zipIdx).map (fun p => (natLabel p.2, p.1)))

/-! ## Memoization keys -/

/-- `collections.Counter(vs)` (`evolution.py:354`): counts in order of first occurrence. -/
def counter (vs : List V) : Dict V Nat :=
  vs.foldl (fun d v => d.set v ((d.get? v).getD 0 + 1)) []

/-- `to_key` (`evolution.py:333-334, 353-354`). -/
def toKey (ks : KeySpec L A V I κ) (ctx : NodeCtx L A V I) : MemoKey V κ :=
  match ks with
  | .ordered => .tuple ctx.neighbourActs
  | .unordered => .counts (counter ctx.neighbourActs)
  | .user f => .user (f ctx)

/-- Equality of keys in the memo table (`evolution.py:305`): tuples as sequences, frozensets as sets of items. -/
def MemoKey.eq : MemoKey V κ → MemoKey V κ → Bool
  | .tuple a, .tuple b => decide (a = b)
  | .counts a, .counts b => a.all (fun p => b.contains p) && b.all (fun p => a.contains p)
  | .user a, .user b => decide (a = b)
  | _, _ => false

/-- `memo_table` (`evolution.py:182`). -/
abbrev Memo (V κ : Type) := List (MemoKey V κ × V)

/-- `memoization_table[key]` if present (`evolution.py:305-306`). -/
def Memo.find (m : Memo V κ) (k : MemoKey V κ) : Option V :=
  (m.find? (fun p => MemoKey.eq p.1 k)).map Prod.snd

/-- The key used when `memoize` is set (`evolution.py:183-184`). -/
def effectiveKey (cfg : Config L A V I σ κ) (n : Net L A) : KeySpec L A V I κ :=
  match cfg.key with
  | some k => k
  | none => match n.rotation with
    | none => .unordered
    | some _ => .ordered

/-! ## One timestep -/

/-- `_get_neighbour_labels` (`evolution.py:294-300`). -/
def neighbourLabels (x : L) (nmap : Option (Dict L (List L))) (n : Net L A) (incoming : Dict L (List (Attr A))) :
    Except Err (List L) :=
  match nmap with
  | some m => m.get x
  | none => match n.rotation with
    | some r => r.get x
    | none => .ok incoming.keys

/-- `[d[x] for x in xs]` with a lookup that may raise (`evolution.py:268`). -/
def mapGet (d : Dict L V) : List L → Except Err (List V)
  | [] => .ok []
  | x :: xs => match d.get x with
    | .error e => .error e
    | .ok v => match mapGet d xs with
      | .error e => .error e
      | .ok vs => .ok (v :: vs)

/-- `node_in` (`evolution.py:269`). -/
def nodeInput (labelIdx : L → Option Int) (inp : Inp I) (x : L) : Except Err (Option I) :=
  match inp with
  | .timestep => .ok none
  | .seq xs => match labelIdx x with
    | none => .error .typeError
    | some k => pyGet xs k
  | .scalar v => .ok (some v)

/-- Variables of the loop in `do_activity_rule` (`evolution.py:261-262`): `curr_activities`, `added_nodes`,
`removed_nodes`, the memo table and the user's state. -/
structure Acc (L A V σ κ : Type) where
  curr : Dict L V
  added : List (AddReq L A V)
  removed : List L
  memo : Memo V κ
  user : σ

/-- `_get_memoized` or a direct call (`evolution.py:273-277, 303-311`).  On a hit the rule is not invoked, so its
context has no requests. -/
def applyRule (cfg : Config L A V I σ κ) (ks : KeySpec L A V I κ)
    (rule : NodeCtx L A V I → σ → Except Err (RuleOut L A V × σ)) (ctx : NodeCtx L A V I) (memo : Memo V κ) (u : σ) :
    Except Err (RuleOut L A V × Memo V κ × σ) :=
  if cfg.memoize then
    match memo.find (toKey ks ctx) with
    | some v => .ok (⟨v, [], []⟩, memo, u)
    | none => match rule ctx u with
      | .error e => .error e
      | .ok (o, u') => .ok (o, memo ++ [(toKey ks ctx, o.value)], u')
  else match rule ctx u with
    | .error e => .error e
    | .ok (o, u') => .ok (o, memo, u')

/-- Context of one node (`evolution.py:265-271`). -/
def mkCtx (cfg : Config L A V I σ κ) (t : Nat) (inp : Inp I) (prev : Dict L V) (n : Net L A)
    (past : Option (List (Option (Dict L V)))) (nmap : Option (Dict L (List L))) (x : L) :
    Except Err (NodeCtx L A V I) :=
  match n.inEdges x with
  | .error e => .error e
  | .ok incoming => match neighbourLabels x nmap n incoming with
    | .error e => .error e
    | .ok nbrs => match prev.get x with
      | .error e => .error e
      | .ok cur => match mapGet prev nbrs with
        | .error e => .error e
        | .ok nacts => match nodeInput cfg.labelIdx inp x with
          | .error e => .error e
          | .ok nin => .ok ⟨x, t, prev, nbrs, nacts, incoming, cur, past, nin⟩

/-- The perturbation part of the loop body (`evolution.py:287-289`). -/
def perturb (cfg : Config L A V I σ κ) (t : Nat) (x : L) (nin : Option I) (curr : Dict L V) (u : σ) :
    Except Err (Dict L V × σ) :=
  match cfg.perturbation with
  | none => .ok (curr, u)
  | some p => match curr.get x with
    | .error e => .error e
    | .ok c => match p ⟨x, c, t, nin⟩ u with
      | .error e => .error e
      | .ok (v, u') => .ok (curr.set x v, u')

/-- Body of the loop in `do_activity_rule` (`evolution.py:264-289`). -/
def nodeStep (cfg : Config L A V I σ κ) (ks : KeySpec L A V I κ)
    (rule : NodeCtx L A V I → σ → Except Err (RuleOut L A V × σ)) (t : Nat) (inp : Inp I) (prev : Dict L V)
    (n : Net L A) (past : Option (List (Option (Dict L V)))) (nmap : Option (Dict L (List L)))
    (acc : Acc L A V σ κ) (x : L) : Except Err (Acc L A V σ κ) :=
  match mkCtx cfg t inp prev n past nmap x with
  | .error e => .error e
  | .ok ctx => match applyRule cfg ks rule ctx acc.memo acc.user with
    | .error e => .error e
    | .ok (o, memo, u) =>
      match perturb cfg t x ctx.input (if x ∈ o.removed then acc.curr else acc.curr.set x o.value) u with
      | .error e => .error e
      | .ok (curr, u') => .ok ⟨curr, acc.added ++ o.added, acc.removed ++ o.removed, memo, u'⟩

/-- `do_activity_rule` (`evolution.py:259-291`). -/
def doActivityRule (cfg : Config L A V I σ κ) (ks : KeySpec L A V I κ)
    (rule : NodeCtx L A V I → σ → Except Err (RuleOut L A V × σ)) (t : Nat) (inp : Inp I) (prev : Dict L V)
    (n : Net L A) (past : Option (List (Option (Dict L V)))) (nmap : Option (Dict L (List L)))
    (memo : Memo V κ) (u : σ) : Except Err (Acc L A V σ κ) :=
  n.labels.foldlM (nodeStep cfg ks rule t inp prev n past nmap) ⟨[], [], [], memo, u⟩

/-- `evolve_activities` without the final store (`evolution.py:242-251`). -/
def computeActs (cfg : Config L A V I σ κ) (ks : KeySpec L A V I κ) (t : Nat) (inp : Inp I) (prev : Dict L V)
    (n : Net L A) (past : Option (List (Option (Dict L V)))) (nmap : Option (Dict L (List L)))
    (memo : Memo V κ) (u : σ) : Except Err (Acc L A V σ κ) :=
  match cfg.rule with
  | none => .ok ⟨[], [], [], memo, u⟩
  | some rule => match doActivityRule cfg ks rule t inp prev n past nmap memo u with
    | .error e => .error e
    | .ok acc => .ok { acc with curr := acc.added.foldl (fun d r => d.set r.label r.state) acc.curr }

/-- `if persist_activities: trajectory[t].activities = curr_activities` (`evolution.py:253-254`). -/
def storeActs (cfg : Config L A V I σ κ) (st : St L A V) (curr : Dict L V) : Except Err (St L A V) :=
  if cfg.persistActs then st.setActs cfg.labelCodec cfg.valCodec curr else .ok st

/-- Insertion of one requested node (`evolution.py:367-370`). -/
def insertReq (cfg : Config L A V I σ κ) (r : AddReq L A V) : NetM L A Unit := do
  Net.addNode r.label [("activity", cfg.actAttr r.state)]
  NetM.forEach r.links (fun p => Net.addEdge r.label p.1 p.2)

/-- Deletions and insertions of requested nodes (`evolution.py:363-370`). -/
def applyReqs (cfg : Config L A V I σ κ) (added : List (AddReq L A V)) (removed : List L) : NetM L A Unit := do
  NetM.forEach removed Net.removeNode
  NetM.forEach added (insertReq cfg)

/-- The heap of `Network` objects (passed by reference through `evolution.py:101-382`) and the user's state. -/
structure World (L A σ : Type) where
  heap : List (Net L A)
  user : σ

/-- Content of the object `r` (any use of `network` in `evolution.py:101-382`).  The model only creates valid references; the default is never used. -/
def World.deref (w : World L A σ) (r : Nat) : Net L A := (w.heap[r]?).getD Net.empty

/-- `network.copy()` as a new object (`evolution.py:361, 374`). -/
def copyObj (cfg : Config L A V I σ κ) (r : Nat) (w : World L A σ) : Except Err (Nat × World L A σ) :=
  match (w.deref r).copy cfg.labelCodec cfg.attrCodec with
  | .error e => .error e
  | .ok n => .ok (w.heap.length, { w with heap := w.heap ++ [n] })

/-- Node additions and removals of `evolve_topology` (`evolution.py:359-370`). -/
def evolveReqs (cfg : Config L A V I σ κ) (r : Nat) (added : List (AddReq L A V)) (removed : List L)
    (w : World L A σ) : Except Err (Nat × World L A σ) :=
  if added.isEmpty && removed.isEmpty then .ok (r, w)
  else match copyObj cfg r w with
    | .error e => .error e
    | .ok (r', w') => match applyReqs cfg added removed (w'.deref r') with
      | (.error e, _) => .error e
      | (.ok (), n) => .ok (r', { w' with heap := w'.heap.set r' n })

/-- Invocation of the topology rule (`evolution.py:375-377`) on the object `r`.  An empty network is falsy. -/
def callTopology (rule : TopCtx L A V → σ → Except Err (TopOut L A × σ)) (t : Nat) (acts : Dict L V) (r : Nat)
    (w : World L A σ) : Except Err (Nat × World L A σ) :=
  match rule ⟨w.deref r, acts, t⟩ w.user with
  | .error e => .error e
  | .ok (o, u) =>
    let heap := w.heap.set r o.given
    match o.ret with
    | .none => .error (.exception "topology rule must return a network")
    | .same => if o.given.nodes.isEmpty then .error (.exception "topology rule must return a network")
               else .ok (r, ⟨heap, u⟩)
    | .fresh n => if n.nodes.isEmpty then .error (.exception "topology rule must return a network")
               else .ok (heap.length, ⟨heap ++ [n], u⟩)

/-- `evolve_topology` without the final store (`evolution.py:357-377`). -/
def evolveTopology (cfg : Config L A V I σ κ) (t : Nat) (acts : Dict L V) (r : Nat) (added : List (AddReq L A V))
    (removed : List L) (w : World L A σ) : Except Err (Nat × World L A σ) :=
  match evolveReqs cfg r added removed w with
  | .error e => .error e
  | .ok (r1, w1) => match cfg.topology with
    | none => .ok (r1, w1)
    | some rule =>
      if cfg.copyNetwork then
        match copyObj cfg r1 w1 with
        | .error e => .error e
        | .ok (r2, w2) => callTopology rule t acts r2 w2
      else callTopology rule t acts r1 w1

/-- `if persist_network: trajectory[t].network = network` (`evolution.py:379-380`). -/
def storeNet (cfg : Config L A V I σ κ) (st : St L A V) (r : Nat) (w : World L A σ) : Except Err (St L A V) :=
  if cfg.persistNet then st.setNet cfg.labelCodec cfg.attrCodec r (w.deref r) else .ok st

/-- `_get_neighbourhood_map` (`evolution.py:401-404`). -/
def neighbourhoodMap (n : Net L A) : Dict L (List L) :=
  match n.rotation with
  | some r => r
  | none => n.nodes.map (fun p => (p.1, p.2.incoming.keys))

/-- `past_conditions[k]` as a dict, or `trajectory[k].activities` (`evolution.py:391-393`). -/
def pastEntry (cfg : Config L A V I σ κ) (traj : List (St L A V)) (lastT : Int) :
    Except Err (Option (Dict L V)) :=
  if lastT < 1 then
    match pyGet cfg.past (lastT - 1) with
    | .error e => .error e
    | .ok c => .ok (some (c.toDict cfg.natLabel))
  else match traj[(lastT - 1).toNat]? with
    | none => .error .keyError
    | some s => .ok (s.getActs cfg.labelCodec cfg.valCodec)

/-- The loop of `_get_past_activities` (`evolution.py:389-396`): fills positions `k-1, ..., 0` going back in time. -/
def pastLoop (cfg : Config L A V I σ κ) (traj : List (St L A V)) :
    Nat → Int → List (Option (Dict L V)) → Except Err (List (Option (Dict L V)))
  | 0, _, acc => .ok acc
  | k + 1, lastT, acc => match pastEntry cfg traj lastT with
    | .error e => .error e
    | .ok d => pastLoop cfg traj k (lastT - 1) (d :: acc)

/-- `_get_past_activities` (`evolution.py:385-398`). -/
def pastActivities (cfg : Config L A V I σ κ) (traj : List (St L A V)) (t : Nat) :
    Except Err (Option (List (Option (Dict L V)))) :=
  if cfg.past.isEmpty then .ok none
  else match pastLoop cfg traj cfg.past.length ((t : Int) - 1) [] with
    | .error e => .error e
    | .ok l => .ok (some l)

/-- Local variables of `evolve` (`evolution.py:176-191`). -/
structure Loop (L A V σ κ : Type) where
  t : Nat
  traj : List (St L A V)
  prevActs : Dict L V
  prevNet : Nat
  memo : Memo V κ
  nmap : Option (Dict L (List L))
  world : World L A σ

/-- Calling `input_fn` (`evolution.py:193, 424-441`). -/
def callInput (src : InputSrc L A V I σ) (t : Nat) (acts : Dict L V) (n : Net L A) (u : σ) :
    Except Err (Option (Inp I) × σ) :=
  match src with
  | .neither => .error (.exception "either the timesteps or input must be provided")
  | .timesteps k => .ok (if (t : Int) = k then none else some .timestep, u)
  | .list items => .ok ((items[t - 1]?).getD none, u)
  | .fn f => f t acts n u

/-- Body of the main loop (`evolution.py:197-232`) for an input `inp` that is not `None`. -/
def evolveStep (cfg : Config L A V I σ κ) (ks : KeySpec L A V I κ) (inp : Inp I) (s : Loop L A V σ κ) :
    Except Err (Loop L A V σ κ) :=
  match pastActivities cfg s.traj s.t with
  | .error e => .error e
  | .ok past =>
    let st0 : St L A V := St.new cfg.compression
    match cfg.order with
    | .activitiesFirst =>
      match computeActs cfg ks s.t inp s.prevActs (s.world.deref s.prevNet) past s.nmap s.memo s.world.user with
      | .error e => .error e
      | .ok acc => match storeActs cfg st0 acc.curr with
        | .error e => .error e
        | .ok st1 =>
          match evolveTopology cfg s.t acc.curr s.prevNet acc.added acc.removed { s.world with user := acc.user } with
          | .error e => .error e
          | .ok (r, w) => match storeNet cfg st1 r w with
            | .error e => .error e
            | .ok st2 =>
              let nmap := if acc.added.isEmpty && acc.removed.isEmpty then s.nmap
                          else some (neighbourhoodMap (w.deref r))
              .ok ⟨s.t + 1, s.traj ++ [st2], acc.curr, r, acc.memo, nmap, w⟩
    | .topologyFirst =>
      match evolveTopology cfg s.t s.prevActs s.prevNet [] [] s.world with
      | .error e => .error e
      | .ok (r, w) => match storeNet cfg st0 r w with
        | .error e => .error e
        | .ok st1 =>
          match computeActs cfg ks s.t inp s.prevActs (w.deref r) past s.nmap s.memo w.user with
          | .error e => .error e
          | .ok acc => match storeActs cfg st1 acc.curr with
            | .error e => .error e
            | .ok st2 => .ok ⟨s.t + 1, s.traj ++ [st2], acc.curr, r, acc.memo, s.nmap, { w with user := acc.user }⟩
    | .synchronous =>
      match evolveTopology cfg s.t s.prevActs s.prevNet [] [] s.world with
      | .error e => .error e
      | .ok (r, w) => match storeNet cfg st0 r w with
        | .error e => .error e
        | .ok st1 =>
          match computeActs cfg ks s.t inp s.prevActs (w.deref s.prevNet) past s.nmap s.memo w.user with
          | .error e => .error e
          | .ok acc => match storeActs cfg st1 acc.curr with
            | .error e => .error e
            | .ok st2 => .ok ⟨s.t + 1, s.traj ++ [st2], acc.curr, r, acc.memo, s.nmap, { w with user := acc.user }⟩

/-- The main loop (`evolution.py:192-232`).  Python's loop has no bound; `fuel` bounds the number of calls of the
input function, and running out of it is the separate outcome `outOfFuel`. -/
def evolveLoop (cfg : Config L A V I σ κ) (ks : KeySpec L A V I κ) :
    Nat → Loop L A V σ κ → Except Err (Loop L A V σ κ)
  | 0, _ => .error .outOfFuel
  | fuel + 1, s =>
    match callInput cfg.input s.t s.prevActs (s.world.deref s.prevNet) s.world.user with
    | .error e => .error e
    | .ok (none, u) => .ok { s with world := { s.world with user := u } }
    | .ok (some inp, u) => match evolveStep cfg ks inp { s with world := { s.world with user := u } } with
      | .error e => .error e
      | .ok s' => evolveLoop cfg ks fuel s'

/-- Result of `evolve`: the returned list of states (`evolution.py:236`), and the heap and user state it leaves. -/
structure Evolved (L A V σ : Type) where
  states : List (St L A V)
  world : World L A σ

/-- `states[t].activities` on the result (`state.py:304-307`); `none` also when there is no state `t`. -/
def Evolved.acts (cfg : Config L A V I σ κ) (res : Evolved L A V σ) (t : Nat) : Option (Dict L V) :=
  (res.states[t]?).bind (fun st => st.getActs cfg.labelCodec cfg.valCodec)

/-- `states[t].network` on the result (`state.py:314-317`); `none` also when there is no state `t`. -/
def Evolved.net (cfg : Config L A V I σ κ) (res : Evolved L A V σ) (t : Nat) : Option (Net L A) :=
  (res.states[t]?).bind (fun st => st.getNet cfg.labelCodec cfg.attrCodec res.world.heap)

/-- Start of `evolve` (`evolution.py:170-191`), after the conversion of the initial conditions. -/
def evolveInit (cfg : Config L A V I σ κ) (init : Dict L V) (r : Nat) (w : World L A σ) :
    Except Err (Loop L A V σ κ) :=
  match cfg.input with
  | .neither => .error (.exception "either the timesteps or input must be provided")
  | _ =>
    if init.length ≠ (w.deref r).size ∧ cfg.rule.isSome then
      .error (.exception "too few intial conditions specified")
    else match (St.new cfg.compression : St L A V).setActs cfg.labelCodec cfg.valCodec init with
      | .error e => .error e
      | .ok s1 => match s1.setNet cfg.labelCodec cfg.attrCodec r (w.deref r) with
        | .error e => .error e
        | .ok s2 =>
          .ok ⟨1, [s2], init, r, [], if cfg.topology.isSome then none else some (neighbourhoodMap (w.deref r)), w⟩

/-- Initial conditions as a dict (`evolution.py:163-168`). -/
def initDict (cfg : Config L A V I σ κ) (init : Option (Conds L V)) : Dict L V :=
  match init with
  | none => []
  | some c => c.toDict cfg.natLabel

/-- `evolve` (`evolution.py:101-236`) on the network object `r` of the world `w`.  `init = none` is
`initial_conditions=None`. -/
def evolve (fuel : Nat) (cfg : Config L A V I σ κ) (init : Option (Conds L V)) (r : Nat) (w : World L A σ) :
    Except Err (Evolved L A V σ) :=
  match evolveInit cfg (initDict cfg init) r w with
  | .error e => .error e
  | .ok s => match evolveLoop cfg (effectiveKey cfg (w.deref r)) fuel s with
    | .error e => .error e
    | .ok s' => .ok ⟨s'.traj, s'.world⟩

end
end Verif
