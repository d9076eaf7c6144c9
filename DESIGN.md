# Design of the netomaton model

The code under study is the Python package `/repo/netomaton`, read as text.  Nothing was executed.
All properties are in `properties.jsonl` (C01 ...).  The Lean project is in `lean/`.

## 1. Layout

* `lean/Verif/Py/*`      : the fragment of Python that the model needs (ordered `dict`, list indexing with
  negative indices, exceptions as values, sorting, base conversions).
* `lean/Verif/Model/*`   : transcription of the code; every definition cites file and lines.
* `lean/Verif/Spec/*`    : small independent specifications (abstract multigraph, ring automaton, Turing machine,
  string rewriting, ...).  They do not use the model's helpers.
* `lean/Verif/Proofs/*`  : lemmas.
* `lean/Verif/Props/*`   : the property theorems, named `Cnn_...`, each with an `example` that meets the hypotheses.

## 2. Trusted base

* The Lean 4.33.0 kernel, and the axioms `propext`, `Classical.choice`, `Quot.sound` (no theorem uses anything
  else; no `sorryAx`, no `Lean.ofReduceBool`, no own axioms).  The table of axioms per theorem is in section 6.
* The transcription: that the definitions in `Model/` say what the cited Python lines do.  Mutation testing
  (`seeded/LOG.jsonl`) exercises the theorems, not the transcription.  A theorem in `failed` is one whose proof broke; this is weaker evidence than
  a false statement, since proofs may depend on the text of a definition, and where theorems were not rebuilt it is not known which would fail.
* Python semantics assumed: `dict` keeps insertion order and equality of keys is decidable (hash/eq coherent);
  `int` is unbounded; list indexing is Python's (negative indices count from the end); iteration over an unmodified
  dict visits the entries in order; generators, comprehensions and deque.rotate as documented.
* Library semantics assumed: `numpy.base_repr`, `str.zfill`, `numpy.pad`, `bin`, `int(s, base)`,
  `statistics.mode` of Python 3.6/3.7 (raises on ties), `collections.Counter`, `random.*` (arbitrary outcome within
  the documented range), `msgpack` (value level: tuples become lists, ints must fit in 64 bit, map keys must be
  hashable after unpacking), `networkx` (only the node/edge enumeration order of a MultiDiGraph).

### Modelling conventions

* A Python `dict` is an association list with insertion order; assigning an existing key keeps its position.
* An exception is a value of `Except Err`.  Where the code mutates before raising, the operation returns the
  state together with the outcome, so "unchanged on failure" is a theorem and not built in.
* Objects that are mutated and shared (networks in `evolve`) live in an explicit heap; states hold references.
* User supplied functions (rules, perturbations, input functions, memo keys) are arbitrary Lean functions.  Where the
  code permits stateful callables (AsynchronousRule, Turing machines, ...) they are state transformers over a
  user state threaded in call order.  Rules may raise.
* The `while True` loop of `evolve` takes fuel; running out of fuel is the separate outcome `outOfFuel` and every
  theorem about results either excludes it by proof (termination) or is stated about finished runs.
* Random numbers are explicit parameters (streams or choice functions), universally quantified.
* Floating point numbers are modelled as exact rationals or reals.  Rounding, overflow, NaN are NOT modelled.
* `check_np` (numpy scalar to Python scalar) is the identity on modelled values.
* Iteration order of a Python `set` is an arbitrary permutation, universally quantified.

### Modelled code

`state.py` (Network, State, value-level compressor), `evolution.py` (all of it), `rules/activity_rule.py`,
`rule_tables.py`, `topology/adjacency.py`, `topology/networks.py` (for `lattice` and `watts_strogatz_graph` the parts of networkx they use are modelled too,
the order of `G.edges` and the outcomes of the random generator being parameters), `reversible_rule.py`, `asynchronous_rule.py`, `sandpile.py`, `ctrbl_rule.py`,
`langtons_loop.py`, `turing_machine.py` (both machines and their annotation helpers),
`substitution_system.py`, `wolfram_physics_model.py` (and the rule of its demo), `hopfield_net.py`, `hopfield_tank_tsp_net.py` (maps, rule, permutation matrix, tour; not plotting),
`turtle.py` (the turtle and L-system drawing as a list of segments, position and distance, the segments of `plot`, the frames and limits of `animate`), `utils.py` (non-plotting helpers, the data that `plot_degree_distribution`, `poincare_plot`, `bifurcation_plot` and
`_reshape_for_animation` compute, the calls that `plot1D` makes, the images, texts, ticks, lines, graphs and frames of the other plotting and animation functions), `vis/vis_utils.py` (`lattice_pos`, `configuration_to_nx`, the edge entries of `get_html`), `analysis.py` (over the real numbers), `fungal_growth_model.py` (over the rational numbers; the set of links is a parameter), `hexplot.py`
(the list of hexagons of `plot_hex_grid`, centres over the real numbers).  Of the demos: the rules and inputs of
`pushdown_automata`, `finite_state_machine`, `collatz_conjecture` (exact integers) and `fredkin_self_replicating_ca`, both rules of `functional_network_automata`, the activity rules of the convection, diffusion, Burgers and wave equation demos, of the spring,
Lorenz, logistic map, continuous automaton and reaction diffusion demos (exact rationals), the rule of the hexagonal demo, the patterns of the Hopfield net demo, the perturbations of the perturbed elementary automaton and sandpile demos, the rules and noise of `perturbation_demo.py` (over the real numbers), the rule of `perturbation_reversible_demo.py`, the rules of the substitution system demos, the rows of the reversible rule 122 demos, the rule table of the first two Turing machine demos, the multilayer perceptron (its output over the real numbers), particle swarm, restricted Boltzmann machine and flocking demos (exact rationals), and the topology rules of
`random_attachment_model`, `randomly_growing_network`, `restricted_network_automata` and `evolving_networks`.

### Not modelled

What matplotlib and NetworkX draw (`utils.py`: colours of images, figure sizes, files, HTML text of `vis/*`, colour maps and axes of `hexplot.py`), msgpack's byte format, gc
switching, numpy dtypes, networkx internals (except those named above) and its random generators, performance, Python recursion limits, memory.
Custom node attributes that overwrite the reserved keys `in`, `out`, `incoming`, `outgoing` are excluded
(`add_node(x, **{"in": 7})` destroys the counters; recorded in section 5).
- `init_random` with an integer dtype, `k <= 0` and no randomized sites: whether `np.random.randint` raises for an empty size could not be checked without NumPy; the model raises, and no theorem on exceptions uses it.

## 3. Plan per property

| property | model and proof |
|---|---|
| C01, C02, C06, C07 | `Net` with operation type `Op`; `run : List Op -> Net`; invariant `WF` by induction over histories; abstract multigraph `MG` (node list plus edge list in order) and a simulation theorem. |
| C03, C04, C05 | per-operation theorems on any `WF` network, success and failure; C05 atomicity with a bad index is false (negation by witness). |
| C08 | matrix as list of rows; fold over edges; sum over the abstract edge list. |
| C09 | fold over matrix entries; round trip when every index has a non-zero row or column; negation with a zero row and column. |
| C10 | value-level msgpack `norm`; copy = id when all values are msgpack-faithful; negations: tuple attribute, rotation system dropped. |
| C11 | decision characterisation of the setter. |
| C12 | MultiDiGraph as node list + edge list in networkx order (by source); round trip up to edge order; undirected negation. |
| C13-C27 | heap-level `evolve`; value-level specification; refinement; per-claim theorems. C13 non-termination for T<=0 proved as "out of fuel for every fuel". C25 freshness: positive theorem for runs without topology rule or without structural requests; negation by a concrete stale run. |
| C28-C30 | digits of naturals; base_repr/zfill/pad transcribed as digit lists. |
| C31 | unique mode: proved; tie may return a minority state: negation by witness. |
| C32, C33 | case analysis over arbitrary neighbourhoods. |
| C34 | string concatenation of decimal numerals; injective for single digits and equal lengths; negation for k>10. |
| C35, C36 | random stream as parameter; invariants over the loop. |
| C37 | end to end over `evolve` with past conditions. |
| C38, C39 | stateful rule threaded through `evolve`; C39 false (reshuffle every timestep), negation by witness. |
| C40-C45 | matrices as lists built by `set`; characterisations with modular arithmetic; C42 Hex false for odd number of rows (witness); C44 consistent 2D geometry false (witness). |
| C46, C47, C77 | composition of topology, engine and rule theorems. |
| C48 | toppling as flow on the torus; sum exchange. |
| C49-C51 | table construction as folds; Langton table by `decide +kernel` on its finite table. |
| C52, C53 | simulation relation with an abstract circular-tape machine. |
| C54 | simulation of string rewriting including labels and links. |
| C55-C58 | transcription; the network is read through the multigraph of C02; invariants of the scan; runs of `evolve`. C55 false from 10 relations on (labels sorted as strings), partial otherwise. |
| C59-C61 | exact arithmetic over Int/Rat. |
| C62-C64 | Int/Rat arithmetic. |
| C65, C75 | turtle with abstract motion; stack discipline. |
| C66, C67 | real numbers (`Real.logb 2`), the entropy as a mean over positions, `log t <= t - 1`; every visiting order of the sets. |
| C68 | decision logic; false (compares with number of nodes), negation by witness. |
| C69-C72 | arithmetic and list lemmas. |
| C73, C74 | link invariant over all random outcomes and orders of the links, by induction over the timesteps; the balance by summing over the edges. |
| C78 | the coordinates of the cartesian product by induction over the dimensions. |
| C80 | case analysis; false for empty values, which are ignored. |
| C79 | false; exactly when loops exist, and a witness. |
| C81 | the writes in order; the last write to a cell. |
| C82 | one kernel computation of 151 steps in a 17 × 28 window whose border stays empty, and a lemma that such a window can be put into every larger torus. |
| C83 | C52 and C53 give the histories; induction over the annotation loop. |
| C84 | squared distances of the centres are 3/4 of an integer form u² + 3v²; false for odd numbers of rows, counterexample for every odd size. |
| C85 | a counting lemma for dicts and C01; false for nodes without edges, the sum with them is proved. |
| C86 | induction over the loop; `a[-0:]` is the whole list, so false for 0 timesteps. |
| C87 | indices of lists. |
| C88 | coordinates of C78; false for `lattice((n_x, n_y))` with different sizes, true for the call in the demos. |
| C89 | induction over relations and edges with the NetworkX model. |
| C90 | the run is a fold of the transition function; the language by following the stack. |
| C91 | the same fold, for a rule without state. |
| C92 | the run relative to the Collatz sequence; returns iff it reaches 1. |
| C93 | the automaton is a sum of commuting translations; modulo a prime its p^k-th power is the sum of the powers. |
| C94, C95 | the rules act on a list of links; a general lemma for runs with only a topology rule (`topology_run`). |
| C96 | loop invariant over the treated pairs; consequences from the law alone. |
| C97 | invariant over the nodes already replaced (`ExpandMid`), with the corner function built along the way; `topology_run`. |
| C98 | `joint_run` (activity rule and topology rule together) with the spread as invariant; lattice distances by induction over the dimensions. |
| C99 | `ring_run` (`ca_run` on the ring of C43); conservation by summation over the ring, bounds by convexity of one step. |
| C100 | `ring_run` with `past_last`; energy by summation by parts; reversal by induction on two successive states. |
| C101 | `mg_run` (runs on the network of a multigraph); invariant by one polynomial identity, bound by completing the square. |
| C102 | `mg_run` on the two networks; rows by `C72_run`. |
| C103 | `mg_run`; laws of the map by induction. |
| C104 | `ring_scheme`; bounds from floor, light cone by induction. |
| C105 | `torus_run_at` (runs of label-dependent rules on the torus); totals by summation over rows and columns. |
| C106 | Equality of the two loops (`evolve_composed`); `pure_of_evolve` for both runs and induction on the timestep; `ca_run` for the demo. |
| C107 | Invariant of `joint_run`: the network is the complete multigraph with the weights of the layer; `setWeights_fullG` for the topology rule, `readWeights_ok` for the files. |
| C108 | `inv_run`: invariants of runs with state, any input and any update order. For the global version an induction over the nodes visited so far (`psoPrefix`). |
| C109 | `bipartite_fold` for the network, `mg_run` for the run; the sums are over permutations of the other layer (`rat_sum_perm`); `rbmPut_fold` for the images. |
| C110 | `top_first_run` (both rules, topology first); invariant: edges from smaller to greater numbers, as many as the `streak`; `flockLink_fold` for the topology rule, `wish_perm` since the order of the neighbours varies. |
| C111 | potential `sandHeight` (each toppling lowers it by two or more, by summation by parts on the torus); least action principle (`least_action`): no legal sequence topples a cell more often than any settling; a simultaneous step is a sequence of single topplings (`topples_step`). |
| C112 | energy of Goles and Olivos (`agreement`): by symmetry of the neighbourhoods it grows by two or more while some node differs from two timesteps before, and is at most the number of pairs of neighbours. |
| C113 | run by `ca_run` with `past_last`; time reversal by strong induction (`ecaTwo_back`); periods by the pigeonhole principle on rows coded as numbers. |
| C114 | `windows 1` are the symbols, so rewriting is `flatMap`; run by C54; closed forms by induction on the steps, from the back (Thue-Morse) or from the front (Fibonacci). |
| C115 | strings by C114 (the word of a symbol is the concatenation of the words of its replacement); `Draws` (displacement, turn, number of segments) composes; the Moore curve by `Fills`: `L` and `R` walk once through a square to the left or right and end at the corner straight ahead, by induction with four disjoint squares; brackets by `Balanced`. |
| C116 | C47 gives Life on the torus; a step on the torus is a step on the plane when two rows and columns are free (`torus_step`: the cells next to the pattern have unique representatives); induction over t with translation invariance (`pattern_run`); `apart_step` for unions. |
| C117 | Tape as a zipper; sweeps by induction on the block lengths (`skip_right`, `skip_left`); a round marks one a, b, c (`abc_round`), n rounds and the final check give the time; every other word reaches a configuration that is a fixed point (`abc_rejects`, by cases on the first wrong letter, with the loop invariant x^k a* y^k b* z^k rest). Runs by C52/C53. |
| C118 | Zipper sweeps: to the left the head marks each cell by (bit, right bit), to the right it computes rule 110 from the mark and the state (`u_left`, `u_right`: 4 + 8 cases), by induction over the row (`sweep_left`, `sweep_right`), then over rows; positions bounded during a sweep (`Sweep`), so the records are the row times (`records_of`); the demo's loop returns the records (`compress_records`). |
| C119 | `torus_run_good`: runs of rules defined on some states only (`wireworld_rule` returns None on others), then refinement to sets of heads and tails (`picture_run`); on a closed wire a free cell sees a head exactly if the cell before it is one (`trains_step`); the two circuits come back to an earlier state (kernel-checked, `diodes_back`, `xor_back`), hence are periodic for ever (`run_mod`). |
| C120 | `C38_run` reduces the run to one update per timestep, `ca_run` gives its states; a sweep of rule 60 is a running parity (`sweep_inside`), and Pascal's triangle modulo 2 in binary digits (`pascal_bits`, by induction on the digits) gives the closed form. |
| C121 | `C43_left_to_right`, `C28_binary_ca` and `ca_run` give the run; the impossibility follows Land and Belew: a perfect rule keeps the majority at every step (`no_density_rule`), so by the number of windows with a single 1 that go to 1, a block with single ones gains or loses too many ones (`blockRow_*`), or a single 1 lives for ever (`single_step`); the rows of the demo are computed in the kernel and are uniform from then on (`localCA_stays`). |
| C122 | the calls on the axes as a list; one round of the loop in closed form (`plot1D_calls`); false for `ylim` as a pair, `legend` as a list, one label for two series, and from Python 3.10 on. |
| C123 | the index after `k` calls is `k mod n` (`frameIndex_mod`); least and greatest value by induction over the list. |
| C124 | `plane_run_good`: as `torus_run_good`, with neighbourhoods that depend on the row and a state of the plane that repeats (`planeCA_tiled`); `planeCA_cone`. |
| C125 | on the plane, in axial coordinates: a turn by 60 degrees keeps the run (`hexRun_turn`), one side is Pascal's triangle modulo 2 (`hexRun_side`); the square by induction (`square_sum`); the torus by the light cone (`middle_run`). |
| C126 | the image, texts, ticks and lines handed to matplotlib; `np.arange` from the ceiling (`npArange_half`); rows by sorting the labels (`activityRow_values`); false for shapes of one number. |
| C127 | the NetworkX graph by the lemmas of C12 with other attributes (`drawn_graph`); the dispatch by cases. |
| C128 | per reversible rule a rank and a phase on pairs of neighbouring cells of two rows with the same successor (`certified`): ranks are constant around the ring, phases force the number of cells to be divisible; per irreversible rule two patterns on a background that collide on every ring from some size on (`not_reversible_pattern`) and rows for smaller rings; tables checked by the kernel. Onto and periodic by the pigeonhole principle. |
| C129 | a flow between neighbouring cells that telescopes around the ring (`flow_conserves`), or a pattern whose sum changes (`not_conserves_pattern`). |
| C130 | induction on time from the local identities. |
| C131 | local linearity by cases; doubling of the number of steps (`linear_power`); superposition by induction on the cells. |
| C132 | axes as the list of segments since the last `ax.clear()`; calls by induction; distances by the triangle inequality; polygons by summing the sines (telescoping). |
| C133 | reshape by index arithmetic; `argmax` commutes with maps that keep the order; tanh via sinh of a difference. |
| C134 | `C57_run` and `C55_relations` per timestep; non-empty right-hand sides keep a node, so that the step never fails. |
| C135 | `margin`: sum over the right units minus the absolute weights of the others; induction on time keeps the right units right. |
| C136 | every change lowers energy minus sum of activities by at least 2; both are bounded. |
| C137 | loop invariant of the rewiring: no repeated edges, every node is first end of `k // 2` edges, all pairs still to be treated are present; the matrix lists each edge in both directions. |
| C138 | the pairs of the loops; counting the ends; false for odd `k`. |
| C139 | equality case of `log t <= t - 1`, summed over the positions; counting the pairs that do not occur. |
| C140 | pigeonhole on the rows as numbers in base `k`; equal rows have equal futures. |
| C141 | `1 - y <= exp(-y)`, `exp(-9) <= 1/7000`; the error of one step is smaller than the error allowed. |
| C142 | the state before is `v ^ next`, with `v` the value of the wrapped rule, which both runs share; induction from the end. |
| C143 | applications replace instances by instances; chains of symbols become chains of nodes. Demo: after the first step exactly one relation has the form `(1, 1, x)` and another ends with 1, so that each scan finds exactly one match. |
| C144 | two ones come from two ones one cell to the right, two zeros from two zeros one cell to the left, so going back in time they would meet within n/2 steps; conservation (C129) decides which kind is left; under rule 232 a cell of the rare state needs both neighbours in that state one step before. |
| C145 | windows of a concatenation; invariants on the ends of the word. |
| C146 | both runs refine the same textbook machine (C52, C53); a computation of T states or a first undefined step; the demo machine by a table of eight phases and rotation. |
| C147 | `ca_run` with the rule a function of its window; invariants of the walk (C36) by induction over the calls; reflected windows are reversed windows. |
| C148 | the same lemmas; sums do not change under reversal. |
| C149 | inductions over two rows at a time; rule 122 as bitwise operations on 100-bit numbers, with checkpoints; `ecaTwo_back` for the reverse. |
| C150 | C66 to C68 for columns; an injective writing does not change entropies (`entropy_congr`); `get_activities_over_time_as_list` of a run (C72); rows that rule 30 leaves alone by going around the ring. |
| C151 | C40 and C41 give the edges; offsets of size a+b split into offsets of sizes a and b (`split_offset`, `split_diamond`); induction over the number of edges. |
| C152 | The ring agrees with the line until the edges meet (`ring_cutOut`); a variable with two values that is driven with period p has period 2p after one period (`driven_period`), and induction over the diagonals; the right side by reflection. |
| C153 | The ratio of the two components of the velocity grows by at least turn / greatest speed in every timestep outside the margin (`comes_back`), after which the position passes every bound; running away by an invariant; the run of `evolve` is C110. |
| C154 | `==` is transcribed as the comparison of nested dicts and lists; for the network of a multigraph (C02) it is brought to a relation on multigraphs that mentions only labels, attributes, parallel edges and targets; each call is shown to keep that relation. |
| C155 | Invariant: every edge comes from a node that was alive at the timestep before (`colony_sources`); a sum of positive shares is positive; the rest by induction over the timesteps from C73_run. |
| C156 | A step multiplies the distance to `1 - 1/r` by `1 - r x`; for r <= 2 the factors are between 0 and a number below 1, for 2 < r < 3 the factors of two steps are, on an interval that is reached and kept (`logistic_two`); for r = 3 the squares of the distances fall by a multiple of their square. Above 3 the fixed points repel, so a limit would have to be reached exactly (`tends_reaches`), which the denominators forbid (`logistic_fraction`). |
| C157 | Both runs are runs on the plane with periodic states (`plane_run_good`); a motion permutes the eight or four offsets (`moore_turn`, `vonNeumann_turn`), so `planeCA` commutes with it by induction (`planeCA_move`); modulo the sizes the motion is well defined (`move_mod`, `tiled_move`). |
| C158 | An injective map of finitely many rows is onto (`rows_onto`, by iterating it until a row repeats, as in C140); applied to the step gives one direction, applied to a choice of predecessors the other (`eden_rows`). Game of Life: the empty pattern and the pattern of one cell both become empty. Wireworld: all conductor and all electron tail both become all conductor. |
| C159 | Induction over the timesteps on `localRun` (`cover_run`); rings by C43 (`ringCell (m n) x d % n = ringCell n (x % n) d`), tori by the plane of C124, equal states by a network of one node with k links to itself. |
| C160 | The sum of the states grows by at least one in every step that is not at rest and is at most n K (`chain_up`, `chain_down`); runs by C140 and C46; the table of an elementary rule is checked for all 256 rules, and a failing pair of neighbourhoods is put on the ring (`corner`). |
| C161 | `evolve_pure` on the single node; C72 for the list and C70 for the image. |
| C162 | The values of the triples are the cells of the state (`hexValues_eq`, `flatten_reshape`); minimum and maximum of a list as in C123; monotonicity of an affine function. |
| C163 | Induction over the timesteps on `localRun` (`any_run`: C140 without bounds on the states); for feed-forward networks two runs agree at a node beyond its rank. |
| C164 | Induction over the timesteps (`ca_run`), with the sum of the rule rewritten as a sum over all nodes (`hopfieldSum_eq`) and the order of summation exchanged; walks are listed without repetition (`walkList`) and counted by induction. |
| C165 | `read_image_activities` as a fold with the dict and the counter as state, equal to the enumeration of the flattened rows; softmax and log over the real numbers, both strictly increasing, composed with `argmax` of `Model/TSP.lean` and with `C107_demo`. |
| C166 | Case distinctions on the definitions; the converses for the ring, the torus, totalistic rules and simple initial conditions use C40_ring, C41_raises_iff, C30_raises_iff and C71_init_simple(2d). |
| C167 | Powers of a number in [0, 1] and division of natural numbers; `exists_pow_lt_of_lt_one` for the limit; the edges of C137_small_world are fewer than the pairs of nodes. |
| C76 | induction over timesteps on the value-level semantics, then refinement. |

None of the listed properties is inexpressible.  Excluded in advance because they cannot be expressed in an exact
model: numerical error of floats, wall-clock effects of memoization, statistical quality of the random choices.

## 4. Status

See `MANIFEST.json`; section 6 lists axioms.

Words used in properties and notes: an *ordinary call* of `evolve` (`Config.Ordinary`, `Spec/CA.lean`) has `timesteps=T`, a stateless activity rule without requests, no topology rule, no perturbation, no compression, persisted activities and the default memoization key; `memoize` and the remaining arguments are arbitrary unless the theorem fixes them. Statements about rings, unless they say otherwise, are about at least three cells, and statements about tori about at least three rows and columns, since on smaller ones neighbours in different directions coincide.

## 5. Disagreements between the code and the expected properties

Found by reading; each becomes a negation theorem where the property fails.

1. `evolve(timesteps=T)` with T <= 0 never terminates (`t == num_steps` test, t starts at 1) (C13).
2. An item `None` in an input list ends the evolution early (C13).
3. `update_edge` with a bad index updates the earlier indices and then raises (C05).
4. `copy()` drops the rotation system, and turns tuples into lists (C10).  Consequently a topology rule under the
   default `copy_network=True`, or a node addition, silently loses a rotation system.
5. `from_adjacency_matrix` drops nodes whose row and column are zero; `complete(1)` has no node (C09, C45).
6. `from_networkx` of an undirected graph keeps one direction only (C12).
7. The neighbourhood map built after node additions is reused even if a topology rule changes the network later (C25).
8. `majority_rule` may return a minority state on ties (C31).
9. `table_rule` with states >= 10: `random_rule_table` uses letters, `str` uses decimals; concatenations collide (C34).
10. `AsynchronousRule(randomize_each_cycle=True)` shuffles after every timestep, so a "cycle" may repeat nodes (C39).
11. Hex adjacency is asymmetric on an odd number of rows, and for radius 2 on any number of rows (C42). For radius 1 and an
    even number of rows it is the six-neighbourhood in offset coordinates.
12. 2D rotation systems are not geometrically consistent between cells (C44).
13. Closed-boundary sandpile discards grains that were on the boundary (C48).
14. Wolfram model: relations come back in string order of their labels (C55); empty relations are dropped.
15. `average_mutual_information` compares the temporal distance with the number of nodes (C68).
16. `HeadCentricTuringMachine`: a string symbol of several characters is truncated to the first; `None` halts (C52).
17. `get_activities_over_time_as_list` skips states without activities (C72).
18. A node removed by its own rule under a perturbation raises KeyError (C22, C23).
19. `add_node` with an attribute called `in`, `out`, `incoming` or `outgoing` destroys the bookkeeping.
20. A node added with a link to a non-existing target creates a node without activity; the next timestep raises (C22).
21. With `copy_network=False` and a topology rule that changes the network in place, SYNCHRONOUS activities see the new
    network (C16, `C16_shared_network`).
22. `int_to_bits(0, 0)` raises although 0 < 2^0 (C29).
23. `random_rule_table` uses letters for states from 10 on; `table_rule` then never finds such a neighbourhood (C34).
24. `random_rule_table(quiescent_state=None)` uses `np.int`, which newer numpy versions removed (not modelled: read as `int`).

25. A `ReversibleRule` or `AsynchronousRule` run with `memoize=True` is served from a cache whose key ignores the past
    activities or the counter (C37, C39: both properties are stated without memoization).
26. `AsynchronousRule` with the reshuffling option replaces the given update order by a shuffle of `range(len(order))`, which
    loses labels that are not `0..n-1` (C39).
27. Closed-boundary sandpile with `memoize=True`: nodes on the boundary and inside with the same neighbourhood share an entry
    (C48, `C48_memoized_closed`).
28. The table of Langton's loop does not cover all neighbourhoods; an uncovered one raises (C51).
29. `TapeCentricTuringMachine` accepts negative directions other than -1; `HeadCentricTuringMachine` with
    `max_timesteps <= 0` never stops by itself (C52, C53).
30. `HopfieldNet`: a unit whose weights are all zero is dropped by the adjacency import, so the run raises (C60,
    `C60_isolated_unit`).
31. `HopfieldTankTSPNet` with one point raises `KeyError` in the rule, because the distance map is empty (C64,
    `C64_one_point`).
32. `SubstitutionSystem`: a timestep with the empty word has activities `None`, so `to_string` and `pad` raise (C54,
    `C54_empty_word`).  Evolving the same object again after a run of two timesteps raises `KeyError`, because the counter of
    added nodes is only reset when the timestep changes (C54, `C54_reuse`).  The dict of rules of the caller is changed when
    constants are given (not modelled).  With the empty string as key everything is erased.
33. `WolframPhysicsModel`: with an empty left-hand side `topology_rule` never returns (C57, `C57_empty_lhs`).  With two or more
    patterns on the left it can miss matches: the scanning ends as soon as the last pattern finds nothing, even if another
    choice for the first patterns would match (example beside C57).  A rewriting that leaves no node makes `evolve` raise.
34. `average_node_entropy` and `average_mutual_information` join `str(state)` without separators, so states of several characters
    run together (`C66_average_joined`: states 1, 11 over time give entropy 0).

35. `FungalGrowthModel` does not conserve the resource, and the balance of C74 does not say so: a node without incoming edges that
    has outgoing edges both keeps and sends all it has, and a node with incoming but no outgoing edges loses what it had
    (`C74_collapsed`; example beside it).

36. `lattice(..., self_loops=True)`: the docstring promises a connection from each node to itself; loops arise only if the lattice
    is periodic and has a dimension of size 1, and then there are two parallel ones (C79, `C79_no_loops`, `C79_false`).
    Nodes without links are lost: `lattice((1,))` is the empty network (example beside C78).

37. `ReversibleRule` with `memoize=True` is not reversible: the memo key does not contain the past activity (C37, `C37_memoized`).

38. `State`: assigning an empty dict or an empty network is ignored, so the previous value stays; a stored network that is emptied
    later reads as `None`; with compression the rotation system is dropped (C80, `C80_empty_activities`,
    `C80_empty_network`, `C80_network_partial`).

39. `init_loops` accepts negative positions and then wraps around the grid (C81); `np.int` no longer exists in current numpy, so
    there it raises `AttributeError` (not modelled).  The table of `LangtonsLoop` is only sufficient as long as the colony does
    not meet itself: on the 28 × 28 torus a missing neighbourhood comes up in step 167, on the torus of the demo in step 507
    (found by simulation, not proved).

40. A `TapeCentricTuringMachine` object keeps its head history between runs, so after a second `evolve` with the same object
    `head_activities` raises `IndexError` (C83, `C83_second_run`).

41. `plot_hex_grid` uses the odd-r layout when the number of rows is odd, but the Hex neighbourhood is even-r for every number of
    rows; so for odd numbers of rows the drawing shows cells side by side that are not linked, and linked cells apart (C84,
    `C84_odd_rows`).

42. `plot_degree_distribution` starts at degree 1, so nodes without (counted) edges are not shown (C85, `C85_isolated`), and a
    network without nodes raises `ValueError` from `max` (`C85_empty`).

43. `bifurcation_plot` with `timesteps=0` draws the whole trajectories, because `t[-0:]` is `t` (C86, `C86_zero`).

44. `lattice_pos(n_x, n_y)` fits `lattice((1, n_y, n_x))`, as the demos call it, but not `lattice((n_x, n_y))`: for all different
    sizes from 2 on some link does not join positions one step apart or the other way round (C88, `C88_transposed`).
45. The pushdown demo prints that the input is accepted whenever `evolve` returns; it returns for every prefix of a word of the
    language with its end marker, such as `aab`, so without the marker it accepts wrong words (C90, `C90_needs_end`).
46. The topology rule of the functional network automaton removes an edge per listed edge, but `remove_edge` removes all parallel edges at
    once: with two parallel edges between active nodes the second call raises `KeyError` (`C98_parallel`).
47. The wave equation demo depends on the state before the last, which is not part of the memoization key: with `memoize=True` cells with equal
    neighbourhoods but different pasts get the same value (`C100_memoized`).
48. `single_spring_netomaton_demo.py:20-23` documents `v[n+1] = v[n] + Δt*(−6x[n])`; the code (lines 30-34) uses the new position. The
    documented method gains energy at every step, the coded one keeps it bounded (`C101_documentation`, `C101_euler_energy`, `C101_bounded`).
49. Demos that would be wrong with `memoize=True` (they do not use it): the first Lorenz demo, whose node has no neighbours and so one key
    (`C102_memoized`), and the logistic map, whose growth rates are not part of the key (`C103_shared_key`).
50. `flocking_demo.py:147` adds an edge from `i` to `j > i` only, although the comment says the boids are "within visual range of each other": only the boid with the greater number sees the other, and boid 0 sees nobody (`C110_first`, `C110_upwards`, `C110_one_way`). The edge is added again at every timestep, so parallel edges accumulate (`C110_run`).
51. `turing_machine_demo1b.py:7-8` and `2b` say the language is `{a^n b^n c^n | n > 0}`; the machine accepts the empty word as well (`q0` on a blank goes to `q6`): `C117_empty_word`.
52. `plot1D` documents `ylim` as "a 2-tuple of numbers, or a list of at most two 2-tuples", but `_get_item` (`utils.py:273-278, 301`) treats a 2-tuple as a sequence and passes one of its numbers to `set_ylim`: only a lower limit is set, and for every second series it is the upper number (`C122_ylim_pair`). `legend` as a list of dicts raises `TypeError` (`C122_legend_list`), a list with one y label raises `IndexError` for two series (`C122_one_ylabel`), and from Python 3.10 on (`collections.Sequence` is gone) lists of labels or colours and all limits raise (`C122_new_python`), so that the spring and logistic map demos fail there after their evolution.
53. `Turtle.animate` (`turtle.py:103-104, 108-109`) computes the margin below from the extent already enlarged above, so that it is wider than the margin above (`C123_limits`).
54. `plot_activities` passes `shape` through `_reshape_for_animation`, which takes shapes of one number, but `plot_grid` then reads `shape[1]` (`utils.py:26-27, 45`): every shape of one number raises (`C126_one_number`). `animate_activities` has the default `shape=None`, with which a list of states always raises, because `len` is applied to an activity (`utils.py:103`, `C126_animate_needs_shape`).
55. `plot_network` knows the layouts `shell` and `spring`, `animate_network` also `planar` and `kamada-kawai` (`utils.py:164-171, 198-209`, `C127_layouts`).
56. `Turtle.animate(repeat=True)` (`turtle.py:111-120`): the call of `update` for the last segment clears the axes after drawing, so that the complete drawing is never shown (`C132_repeat_incomplete`).
57. `HopfieldNet` (`hopfield_net.py:11-12`) says that the final state should settle into one of the training patterns; other states of rest exist even if all training patterns are states of rest (`C136_spurious`, `C61_inverse`), and because the order is shuffled after every timestep no number of timesteps is certain to be enough (`C135_no_guarantee`).
58. `watts_strogatz_graph` (`topology/networks.py:100`): `k` is documented as the number of nearest neighbours a node joins to; odd `k` give `k - 1` neighbours (C138, `C138_odd`).  `k < 2` raises (`C137_rejected`), and `n = k = 1` returns the empty network (`C137_complete`).
59. `demos/langtons_lambda/rule_table_walkthrough_demo.py:4-16`: the first table is made with `isotropic=True`, but `table_walk_through` is called without it, so the tables that are run need not be isotropic (C147_walk_loses_mirror gives tables, a walk, and a symmetric row that does not stay symmetric). The library does what it is asked; the demo presumably meant to keep the isotropy.
60. `demos/langtons_lambda/average_node_entropy_demo.py:11`: "the value will be ~0.999 in this case" does not hold for every outcome of `init_random`: it is exactly 0 if all cells are 0 or if 0 and 1 alternate (C150_demo), though these rows are improbable.
61. Hex neighbourhoods of radius 2 are not the cells within two steps of radius 1: the cell two rows down and two columns to the right of a cell in an even row is included, though three steps away (C151_hex_radius_two; `adjacency.py:59-65` only cuts off the cells at the extreme column on one side).
62. Flocking demo: at the margins 2 is added to a velocity whose length is afterwards brought to at least 3, so a boid that flies exactly at right angles to a margin is never turned and leaves the plot for ever (C153_runs_away, C153_demo).
63. `Network.__eq__` compares the lists `outgoing` in order but the dicts `incoming` without order, and not the rotation system at all.  So two networks with the same nodes and edges can differ (C154_order_of_targets), and two equal networks can evolve differently (C154_equal_but_different_runs).
64. Logistic map demos 2 and 3: the last growth rate is exactly 4 and the start is 1/2, so the population is 1 and then 0 for ever; the right end of the bifurcation plot shows extinction instead of chaos (C156_four, C156_demos).
65. `demos/hopfield_tank_tsp/hopfield_tank_tsp_net_demo.py:23` and its README call `ntm.from_adjacency_matrix`; `netomaton/__init__.py` exports no such name (only `topology.from_adjacency_matrix`), so the demo ends with an AttributeError before anything evolves. Found by comparing all names of the form `ntm.x` in demos, tests and READMEs with the exports; it is the only one. Names of modules are not part of the model.
66. `animate_hex` accepts `vmin` and `vmax` but never uses them: `hexplot.py:79` hands only the colour map of `m`, not its limits, to the `PatchCollection`, which matplotlib then scales to the first array drawn (C162_ignored). If that state is constant, the whole animation has one colour (C162_animation).
67. The `softmax` of `demos/mlp/mlp_demo.py:47-49` does not subtract the greatest value before `np.exp`: with floats the result is NaN for outputs above 709, although the first greatest output is what the title should name (C165 is proved over the real numbers; floats are not modelled).
68. `demos/optimizing_particle_swarms/pso_dynamic_demo.py:44`: the comment "the initial network is essentially a fully connected network" does not hold: with 20 nodes and k = 4 it has 80 edges for every outcome of the generator, a complete network has 380 (C167_network).
69. A Hopfield net run with `memoize=True`: the key holds neither the unit nor its weights, so units whose neighbours have the same activities share an entry; several units change at once, the energy can increase and the net need not come to rest (C60, `C60_memoized`). The single trained pattern of C61 stays fixed with memoization too (`C61_memoized`).

The quantifiers of C13, C14, C15, C22, C23, C27, C60, C64, C109, C111, C113, C135, C136, C156, C158, C159, C160, C163 and C164 first did not mention memoization, although the theorems about `evolve` assume that it is off; only the notes of most of them did. The quantifiers now name this restriction, which makes these properties narrower than first registered. For C37, C39, C48, C60, C100, C102 and C103 items 25, 27, 37, 47, 49 and this item show what goes wrong with memoization; for the others the only link is C17, which carries results over to memoized calls when the key determines what the rule returns. Likewise C106, C112, C118, C125, C141 and C159 now say that the rings and tori have at least 3 cells to a side.

## 6. Axioms per theorem

Output of `#print axioms`, grouped (689 theorems).

- **Classical.choice, Quot.sound, propext**: `C01_degrees_count_edges`, `C02_refines_multigraph`, `C03_remove_node`, `C04_remove_edge`, `C05_update_edge_partial`, `C06_handshake`, `C07_no_dangling`, `C08_to_adjacency_matrix`, `C09_from_adjacency_matrix`, `C09_round_trip_partial`, `C100_energy`, `C100_memoized`, `C100_no_past`, `C100_reverse`, `C100_run`, `C100_run_back`, `C100_total`, `C101_bounded`, `C101_conserved`, `C101_documentation`, `C101_euler_energy`, `C101_run`, `C102_axis`, `C102_fixed`, `C102_memoized`, `C102_network`, `C102_rows`, `C102_run`, `C102_symmetry`, `C103_extinction`, `C103_fixed`, `C103_memoized`, `C103_no_loop`, `C103_period_two`, `C103_run`, `C103_shared_key`, `C103_unit`, `C104_bounded`, `C104_dyadic`, `C104_no_neighbours`, `C104_run`, `C104_unit`, `C105_balance`, `C105_bounds`, `C105_conserved`, `C105_run`, `C105_steady`, `C106_cone`, `C106_demo`, `C107_demo`, `C107_forward`, `C107_no_edge`, `C107_read`, `C108_camel`, `C108_camel_minimum`, `C108_global`, `C108_isolated`, `C108_local`, `C108_sphere`, `C109_biases`, `C109_demo`, `C109_gibbs`, `C109_init`, `C109_missing`, `C10_copy_partial`, `C110_first`, `C110_frames`, `C110_one_way`, `C110_run`, `C110_speed`, `C110_upwards`, `C111_demo`, `C111_drops`, `C111_open`, `C111_order`, `C111_rest`, `C111_run`, `C111_spill`, `C112_conditions`, `C112_matrix`, `C112_period_two`, `C112_ring`, `C112_run`, `C113_demo`, `C113_eventually_periodic`, `C113_periodic`, `C113_run`, `C114_fibonacci`, `C114_run`, `C114_thue_morse`, `C115_koch`, `C115_moore`, `C115_plant`, `C115_real_quarter`, `C115_real_third`, `C115_render`, `C115_sierpinski`, `C115_tree`, `C116_apart`, `C116_demo`, `C116_evolve`, `C116_glider`, `C116_ship`, `C117_accepts`, `C117_head_accepts`, `C117_head_forever`, `C117_head_rejects`, `C117_tape`, `C118_head`, `C118_records`, `C118_same`, `C118_tape`, `C119_diodes`, `C119_evolve`, `C119_loop`, `C119_sets`, `C119_wiring`, `C119_xor`, `C11_rotation_setter_partial`, `C120_demo`, `C120_period`, `C120_run`, `C120_sweeps`, `C120_triangle`, `C121_demo_fooled`, `C121_no_local_rule`, `C121_no_rule`, `C121_run`, `C122_decorations`, `C122_errors`, `C122_legend_list`, `C122_one_ylabel`, `C122_plot_partial`, `C122_twin`, `C122_ylim_pair`, `C123_frames`, `C123_limits`, `C123_no_trajectory`, `C123_once`, `C124_hex`, `C124_light_cone`, `C124_moore`, `C124_von_neumann`, `C125_hex`, `C125_outline`, `C125_square`, `C126_all_states`, `C126_animate_needs_shape`, `C126_annotations`, `C126_errors`, `C126_few_titles`, `C126_figure`, `C126_grid`, `C126_lines`, `C126_multiple`, `C126_nothing`, `C126_one_number`, `C126_plot_grid`, `C126_plot_grid_all`, `C126_raises`, `C126_state_partial`, `C127_animate`, `C127_plot`, `C128_evolve_irreversible`, `C128_evolve_returns`, `C128_evolve_reversible`, `C128_onto`, `C128_returns`, `C129_evolve`, `C129_evolve_others`, `C12_round_trip_partial`, `C12_undirected_partial`, `C130_evolve`, `C131_powers_of_two`, `C131_rule90_dies`, `C131_superposition`, `C132_abs`, `C132_closed`, `C132_polygon`, `C132_star`, `C133_tanh`, `C134_to_configurations`, `C135_demo`, `C135_no_guarantee`, `C135_recall`, `C136_comes_to_rest`, `C136_evolve`, `C136_spurious`, `C137_complete`, `C137_ends`, `C137_rejected`, `C137_small_world`, `C138_odd`, `C138_ring_partial`, `C139_determined`, `C139_independent`, `C139_max_entropy`, `C13_initial_conditions`, `C13_input_function`, `C13_input_list`, `C13_nonpositive_never_returns`, `C13_returns`, `C13_timesteps`, `C140_life`, `C140_repeats`, `C140_reversible`, `C140_run`, `C141_bounded`, `C141_errors`, `C141_follows30`, `C141_follows90`, `C141_run30`, `C141_run90`, `C141_side`, `C142_injective`, `C143_demo`, `C143_grows`, `C144_classifies`, `C144_flow`, `C144_settles`, `C144_sharp`, `C145_demo3`, `C145_demo4`, `C145_demo5`, `C145_demo7`, `C145_run`, `C146_agree`, `C146_demo_head`, `C146_demo_tape`, `C147_mirror`, `C147_quiet`, `C147_run`, `C147_tables`, `C147_too_many_states`, `C147_walk_loses_mirror`, `C148_demo`, `C148_mirror`, `C148_run`, `C149_demos`, `C149_mirror`, `C149_quiet`, `C149_superposition`, `C14_synchronous`, `C150_between`, `C150_bounds`, `C150_delayed`, `C150_demo`, `C150_one_bit`, `C150_one_bit_shared`, `C150_order`, `C150_periodic`, `C150_reverse`, `C150_states`, `C150_still`, `C150_zero_iff`, `C151_hex_radius_two`, `C151_moore`, `C151_ring`, `C151_ring_all`, `C151_torus_all`, `C151_von_neumann`, `C152_demo`, `C152_diagonals`, `C152_edges`, `C152_outside`, `C152_pascal`, `C153_comes_back`, `C153_demo`, `C153_runs_away`, `C154_calls`, `C154_equal_iff`, `C154_equivalence`, `C154_order_of_edges`, `C154_order_of_targets`, `C154_queries`, `C154_rotation_ignored`, `C154_undo`, `C155_colony`, `C156_converges`, `C156_demos`, `C156_extinct`, `C156_four`, `C156_wanders`, `C157_motion`, `C157_rules`, `C157_symmetric`, `C158_eden`, `C158_evolve`, `C158_life`, `C158_wireworld`, `C159_cover`, `C159_equal`, `C159_ring`, `C159_torus`, `C15_run`, `C160_elementary`, `C160_elementary_rest`, `C160_order`, `C160_rest`, `C160_rules`, `C161_drawn`, `C161_steps`, `C162_animation`, `C162_empty`, `C162_false`, `C162_given`, `C162_ignored`, `C162_plot_partial`, `C162_raises`, `C163_cycle`, `C163_forgets`, `C163_upstream`, `C164_counts`, `C164_powers`, `C164_walks`, `C165_class`, `C165_demo`, `C165_none`, `C165_pixels`, `C165_softmax`, `C166_few_titles`, `C166_hex`, `C166_init_random`, `C166_init_simple`, `C166_layout`, `C166_one_number`, `C166_ring`, `C166_rules`, `C166_torus`, `C167_decay`, `C167_demo`, `C167_limit`, `C167_network`, `C16_update_order_partial`, `C17_memoize_transparent`, `C18_default_keys`, `C19_past_activities`, `C20_flags`, `C21_copy`, `C22_requests`, `C23_perturbation`, `C24_bad_item`, `C24_input_function`, `C24_input_routing`, `C25_neighbours_partial`, `C26_size_mismatch`, `C27_prefix`, `C27_restart`, `C28_binary_ca`, `C29_bits_partial`, `C30_depends_on_sum`, `C30_message`, `C30_raises_iff`, `C30_totalistic`, `C32_life`, `C33_states`, `C34_collision`, `C34_letters`, `C34_message`, `C34_table_partial`, `C35_draws`, `C35_errors`, `C35_random_table`, `C35_total`, `C36_few_states`, `C36_keeps`, `C36_terminates`, `C36_walk`, `C37_reversible_partial`, `C38_run`, `C38_timestep`, `C39_one_node_partial`, `C40_radius_too_large`, `C40_ring`, `C41_hex`, `C41_moore`, `C41_raises_iff`, `C41_von_neumann`, `C42_hex_partial`, `C42_hex_ring`, `C42_in_neighbours`, `C42_moore`, `C42_ring`, `C42_von_neumann`, `C43_left_to_right`, `C43_whole_ring`, `C44_centre_partial`, `C44_interior`, `C45_bipartite`, `C45_complete_partial`, `C45_disconnected`, `C46_elementary_ca`, `C47_game_of_life`, `C48_sandpile_run`, `C48_stable`, `C48_total`, `C49_raises`, `C49_run`, `C49_torus`, `C52_forever`, `C52_head_centric`, `C52_undefined`, `C53_directions`, `C53_tape_centric`, `C53_undefined`, `C54_pad`, `C54_run`, `C54_to_string`, `C55_order`, `C55_relations`, `C55_round_trip_partial`, `C55_ten_relations`, `C56_failure`, `C56_succeeds_iff`, `C56_success`, `C57_rewrite`, `C57_run`, `C57_run_total`, `C57_single_complete`, `C58_counter`, `C58_fresh`, `C58_topology_rule`, `C59_hebb`, `C59_same_length`, `C60_energy`, `C60_isolated_unit`, `C61_fixed`, `C61_inverse`, `C61_memoized`, `C62_coordinates`, `C63_tour`, `C64_distances`, `C64_one_point`, `C64_rule`, `C64_run`, `C65_length`, `C65_raises`, `C66_average`, `C66_average_empty`, `C66_average_joined`, `C66_bounds`, `C66_empty`, `C66_formula`, `C66_invariant`, `C66_uniform`, `C66_zero_iff`, `C67_joint_bounds`, `C67_joint_formula`, `C67_nonneg`, `C67_self`, `C67_symmetric`, `C67_unequal`, `C68_false`, `C68_false_accepts`, `C68_returns_iff`, `C68_square_partial`, `C68_value`, `C69_ncr`, `C69_pascal`, `C70_binarize`, `C70_raises`, `C71_init_random`, `C71_init_simple`, `C71_init_simple2d`, `C71_simple_errors`, `C72_run`, `C72_run_nat`, `C73_probability`, `C73_run`, `C73_topology_rule`, `C73_torus`, `C73_weights`, `C74_balance`, `C74_collapsed`, `C74_layer`, `C74_step`, `C76_light_cone`, `C77_translation`, `C78_degree`, `C78_lattice`, `C78_periodic_zero`, `C79_no_loops`, `C79_self_loops_partial`, `C81_init_loops`, `C81_one_loop`, `C81_raises`, `C82_replicates`, `C83_head`, `C83_tape`, `C84_drawn`, `C84_linked_partial`, `C84_no_overlap`, `C84_odd_rows`, `C84_raises`, `C84_touch_partial`, `C85_all_counted_partial`, `C85_bars`, `C86_poincare`, `C86_poincare_raises`, `C88_demo_partial`, `C88_positions`, `C88_transposed`, `C89_configuration`, `C90_accepts`, `C90_language`, `C90_needs_end`, `C91_turnstile`, `C92_never`, `C92_reaches_one`, `C93_copies`, `C93_replicates`, `C93_run`, `C94_few`, `C94_links`, `C94_run`, `C94_simple`, `C95_demo`, `C95_links2`, `C95_run1`, `C95_run2`, `C95_tree`, `C95_undirected`, `C96_missing`, `C96_run`, `C97_connected`, `C97_demo`, `C97_four`, `C97_run`, `C97_triangle`, `C98_active`, `C98_lattice`, `C98_parallel`, `C98_run`, `C98_vanish`, `C99_burgers`, `C99_burgers_bounds`, `C99_conserved`, `C99_convection_bounds`, `C99_demos`, `C99_diffusion`, `C99_diffusion_bounds`, `C99_inviscid`, `C99_limits`, `C99_linear_convection`, `C99_nonlinear_convection`, `C99_shift`, `C99_simple_diffusion`, `C99_zero_division`
- **Quot.sound, propext**: `C08_missing_node`, `C104_light_cone`, `C106_compose`, `C106_front`, `C106_memoized`, `C106_speed`, `C109_read`, `C113_palindrome`, `C114_morphism`, `C114_words`, `C116_plane`, `C118_rows`, `C11_stale_after_removal`, `C122_new_python`, `C126_plot1D`, `C126_plot1D_nothing`, `C126_plot1D_states`, `C128_reversible_rules`, `C128_three_cells`, `C129_conserving_rules`, `C129_three_cells`, `C12_undirected_one_direction`, `C130_symmetries`, `C131_additive_rules`, `C132_animation`, `C132_no_repeat`, `C132_repeat_incomplete`, `C133_matrix`, `C133_order`, `C133_raises`, `C134_no_network`, `C135_patterns`, `C143_hangs_together`, `C148_quiet`, `C15_timestep`, `C165_image`, `C165_shape`, `C165_short`, `C166_no_network`, `C21_compression`, `C28_out_of_range`, `C31_majority_partial`, `C41_messages`, `C48_grains`, `C48_memoized_closed`, `C48_nonneg`, `C49_message`, `C50_message`, `C50_no_conflict`, `C50_plain`, `C50_rotations`, `C50_rule`, `C50_short_key`, `C51_langton`, `C51_not_total`, `C52_long_symbols`, `C52_needs_stop`, `C54_empty_word`, `C54_init`, `C54_system`, `C65_brackets`, `C65_pop`, `C69_messages`, `C70_errors`, `C71_init_random_range`, `C71_random_errors`, `C72_rows_partial`, `C72_skip_rows`, `C72_skips`, `C75_render`, `C75_stack`, `C75_state`, `C75_unbound_error`, `C79_false`, `C80_activities_partial`, `C80_network_partial`, `C83_second_run`, `C86_bifurcation_partial`, `C86_poincare_small`, `C86_zero`, `C87_one_dim`, `C87_raises`, `C87_two_dim`, `C89_html`, `C96_quiescent`, `C96_simple`, `C96_undirected`, `C96_within`, `C97_size`, `C97_sizes`
- **none**: `C05_bad_index_not_atomic`, `C10_copy_drops_rotation`, `C130_classes`, `C161_loop`, `C45_complete_one`, `C45_complete_zero`, `C45_complete_zero_message`, `C52_needs_stop_message`, `C57_empty_lhs`, `C65_forward`, `C80_empty_activities`, `C80_empty_network`, `C85_empty`, `C85_isolated`, `C98_dissolved`
- **propext**: `C09_isolated_node_lost`, `C10_copy_changes_tuples`, `C10_surviving_values_partial`, `C117_empty_word`, `C118_needs_room`, `C127_layouts`, `C127_message`, `C142_demo`, `C154_equal_but_different_runs`, `C166_endless`, `C166_ncr`, `C16_shared_network`, `C22_dangling_link_raises`, `C22_foreign_removal_keeps_activity`, `C22_perturbed_removal_raises`, `C25_stale_neighbours`, `C29_zero_width`, `C31_minority`, `C33_wireworld`, `C37_memoized`, `C37_timestep_dependent`, `C38_memoized`, `C39_labels_lost`, `C39_unfair`, `C40_raises`, `C42_hex_odd_rows`, `C42_hex_radius_two`, `C44_orders_differ`, `C54_reuse`, `C60_memoized`, `C63_shape`, `C65_connected`, `C65_error`, `C75_unbound`, `C78_symmetric`, `C80_new`
