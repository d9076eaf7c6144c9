import Verif.Model.Evolution
import Verif.Model.Matrix
/-! # Model of the topology rules of the demos of changing networks

`draw2 l` stands for `np.random.choice(l, size=2, replace=False)`, `draw1 k` for `np.random.choice(list(range(k)))`,
`coin` for the test of `random.random()`; they are arbitrary functions of the user's state (the generator of random
numbers). -/

namespace Verif

/-- Runs mutating calls on the network of the context and returns it, as the topology rules that `return ctx.network` do
(`demos/random_attachment_model/random_attachment_model_demo.py:17-23`,
`demos/randomly_growing_network/randomly_growing_network_demo1.py:16-24`,
`demos/randomly_growing_network/randomly_growing_network_demo2.py:28-38`). -/
def mutateGiven {L A σ : Type} (m : NetM L A Unit) (n : Net L A) (u : σ) : Except Err (TopOut L A × σ) :=
  match m n with
  | (.error e, _) => .error e
  | (.ok (), n') => .ok (⟨n', .same⟩, u)

section
variable {A V σ : Type}

/-- `topology_rule` of the random attachment model
(`demos/random_attachment_model/random_attachment_model_demo.py:17-23`). -/
def attachRule (draw2 : List Nat → σ → Except Err ((Nat × Nat) × σ)) (ctx : TopCtx Nat A V) (u : σ) :
    Except Err (TopOut Nat A × σ) :=
  match draw2 ctx.net.labels u with
  | .error e => .error e
  | .ok ((a, b), u') =>
    if ctx.net.hasEdge b a = false ∧ ctx.net.hasEdge a b = false then
      mutateGiven (do Net.addEdge b a []; Net.addEdge a b []) ctx.net u'
    else .ok (⟨ctx.net, .same⟩, u')

/-- `topology_rule` of the first model of randomly growing networks
(`demos/randomly_growing_network/randomly_growing_network_demo1.py:16-24`). -/
def growRule1 (draw1 : Nat → σ → Except Err (Nat × σ)) (ctx : TopCtx Nat A V) (u : σ) : Except Err (TopOut Nat A × σ) :=
  match Net.addNode ctx.net.size [] ctx.net with
  | (.error e, _) => .error e
  | (.ok (), n) => match draw1 ctx.net.size u with
    | .error e => .error e
    | .ok (c, u') => mutateGiven (do Net.addEdge ctx.net.size c []; Net.addEdge c ctx.net.size []) n u'

/-- `topology_rule` of the second model of randomly growing networks
(`demos/randomly_growing_network/randomly_growing_network_demo2.py:28-38`). -/
def growRule2 (coin : σ → Bool × σ) (draw2 : List Nat → σ → Except Err ((Nat × Nat) × σ)) (ctx : TopCtx Nat A V) (u : σ) :
    Except Err (TopOut Nat A × σ) :=
  match Net.addNode ctx.net.size [] ctx.net with
  | (.error e, _) => .error e
  | (.ok (), n) => match coin u with
    | (false, u') => .ok (⟨n, .same⟩, u')
    | (true, u') => match draw2 n.labels u' with
      | .error e => .error e
      | .ok ((a, b), u'') => mutateGiven (do Net.addEdge b a []; Net.addEdge a b []) n u''

/-- The body of the inner loop of `topology_rule` of the restricted network automaton
(`demos/restricted_network_automata/restricted_network_automata_demo.py:42-55`); `new` is `new_network`. -/
def restrictedStep (U cur : Net Nat A) (i : Nat) (degI : Int) (new : Net Nat A) (j : Nat) : Except Err (Net Nat A) :=
  if i = j then .ok new
  else match cur.inDegree j with
    | .error e => .error e
    | .ok degJ =>
      if degI + degJ = 2 ∧ cur.hasEdge j i = false ∧ U.hasEdge j i = true then
        match Net.addEdge j i [] new with
        | (.error e, _) => .error e
        | (.ok (), new') => .ok new'
      else if degI + degJ = 3 ∧ cur.hasEdge j i = true then .ok new
      else if cur.hasEdge j i = true then
        match Net.removeEdge j i new with
        | (.error e, _) => .error e
        | (.ok (), new') => .ok new'
      else .ok new

/-- The body of the outer loop (`demos/restricted_network_automata/restricted_network_automata_demo.py:39-55`). -/
def restrictedRow (U cur : Net Nat A) (new : Net Nat A) (i : Nat) : Except Err (Net Nat A) :=
  match cur.inDegree i with
  | .error e => .error e
  | .ok degI => U.labels.foldlM (restrictedStep U cur i degI) new

/-- `topology_rule` of the restricted network automaton
(`demos/restricted_network_automata/restricted_network_automata_demo.py:36-56`); `U` is `underlying_network`. -/
def restrictedRule (cl : Codec Nat) (ca : Codec A) (U : Net Nat A) (ctx : TopCtx Nat A V) (u : σ) :
    Except Err (TopOut Nat A × σ) :=
  match ctx.net.copy cl ca with
  | .error e => .error e
  | .ok new => match U.labels.foldlM (restrictedRow U ctx.net) new with
    | .error e => .error e
    | .ok new' => .ok (⟨ctx.net, .fresh new'⟩, u)

end

/-- `to_connect = inserted.pop()` and `new_network.add_edge_bidir(to_connect, incoming_node)`
(`demos/evolving_networks/evolving_networks_demo.py:32-34`); the state is `inserted` and `new_network`.  If the incoming
node is the node `x` itself, the iterated dict grows, and Python raises `RuntimeError`. -/
def connectInserted {A : Type} (x : String) (s : List String × Net String A) (z : String) : Except Err (List String × Net String A) :=
  match s.1.getLast? with
  | none => .error .indexError
  | some y => match Net.addEdgeBidir y z [] s.2 with
    | (.error e, _) => .error e
    | (.ok (), n) =>
      if z = x then .error (.exception "RuntimeError: dictionary changed size during iteration") else .ok (s.1.dropLast, n)

/-- The body of the loop of `topology_rule` (`demos/evolving_networks/evolving_networks_demo.py:22-36`).  The loop over
`in_edges` runs over the keys present at its start, see `connectInserted` for the case in which they change. -/
def expandNode {A : Type} (n : Net String A) (x : String) : Except Err (Net String A) :=
  match (do Net.addEdgeBidir (x ++ "a") (x ++ "b") []; Net.addEdgeBidir (x ++ "a") (x ++ "c") []
            Net.addEdgeBidir (x ++ "b") (x ++ "c") [] : NetM String A Unit) n with
  | (.error e, _) => .error e
  | (.ok (), n1) => match n1.inEdges x with
    | .error e => .error e
    | .ok inc =>
      match inc.keys.foldlM (connectInserted x) ([x ++ "a", x ++ "b", x ++ "c"], n1) with
      | .error e => .error e
      | .ok (_, n2) => match Net.removeNode x n2 with
        | (.error e, _) => .error e
        | (.ok (), n3) => .ok n3

/-- `topology_rule` of the evolving network (`demos/evolving_networks/evolving_networks_demo.py:19-38`). -/
def expandRule {A V σ : Type} (cl : Codec String) (ca : Codec A) (ctx : TopCtx String A V) (u : σ) :
    Except Err (TopOut String A × σ) :=
  match ctx.net.copy cl ca with
  | .error e => .error e
  | .ok new => match ctx.net.labels.foldlM expandNode new with
    | .error e => .error e
    | .ok new' => .ok (⟨ctx.net, .fresh new'⟩, u)

end Verif
