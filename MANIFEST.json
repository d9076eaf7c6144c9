{
 "claims": [
  {
   "property": "C01",
   "status": "proved",
   "theorems": [
    "Verif.C01_degrees_count_edges"
   ],
   "note": "For every call history and node, the three degree queries equal counts over edges."
  },
  {
   "property": "C02",
   "status": "proved",
   "theorems": [
    "Verif.C02_refines_multigraph"
   ],
   "note": "Every query, and the outcome of every further call, equals that of the abstract multigraph after the same history."
  },
  {
   "property": "C03",
   "status": "proved",
   "theorems": [
    "Verif.C03_remove_node"
   ],
   "note": "Effect of remove_node on labels, edges, attributes and degrees; KeyError leaves everything unchanged."
  },
  {
   "property": "C04",
   "status": "proved",
   "theorems": [
    "Verif.C04_remove_edge"
   ],
   "note": "Effect of remove_edge; KeyError leaves everything unchanged."
  },
  {
   "property": "C05",
   "status": "partial",
   "theorems": [
    "Verif.C05_update_edge_partial",
    "Verif.C05_bad_index_not_atomic"
   ],
   "note": "Atomicity on a bad index is false (C05_bad_index_not_atomic); the rest is proved."
  },
  {
   "property": "C06",
   "status": "proved",
   "theorems": [
    "Verif.C06_handshake"
   ],
   "note": "Handshake for in- and out-degrees."
  },
  {
   "property": "C07",
   "status": "proved",
   "theorems": [
    "Verif.C07_no_dangling"
   ],
   "note": "Edge endpoints are nodes, and queries about them do not raise."
  },
  {
   "property": "C08",
   "status": "proved",
   "theorems": [
    "Verif.C08_to_adjacency_matrix",
    "Verif.C08_missing_node"
   ],
   "note": "C08_to_adjacency_matrix: entry = sum (or last) of weights, for any permutation of the nodes as nodelist. C08_missing_node: a nodelist that lacks an end of an edge raises ValueError."
  },
  {
   "property": "C09",
   "status": "partial",
   "theorems": [
    "Verif.C09_from_adjacency_matrix",
    "Verif.C09_round_trip_partial",
    "Verif.C09_isolated_node_lost"
   ],
   "note": "Edges and nodes of from_adjacency_matrix are proved for all matrices. The round trip fails for an index with no entry (C09_isolated_node_lost) and is proved otherwise."
  },
  {
   "property": "C10",
   "status": "partial",
   "theorems": [
    "Verif.C10_copy_partial",
    "Verif.C10_surviving_values_partial",
    "Verif.C10_copy_drops_rotation",
    "Verif.C10_copy_changes_tuples"
   ],
   "note": "Partial. For networks reached by any call history whose labels and attributes msgpack returns exactly, the copy equals the network (values and order) except that the rotation system is dropped. Counterexamples: C10_copy_drops_rotation, C10_copy_changes_tuples. The theorem is about values; that the copy is a separate object is part of the model of evolve (C21), not of this theorem."
  },
  {
   "property": "C11",
   "status": "partial",
   "theorems": [
    "Verif.C11_rotation_setter_partial",
    "Verif.C11_stale_after_removal"
   ],
   "note": "The setter is characterised. The invariant over later removals is false (C11_stale_after_removal)."
  },
  {
   "property": "C12",
   "status": "partial",
   "theorems": [
    "Verif.C12_round_trip_partial",
    "Verif.C12_undirected_one_direction",
    "Verif.C12_undirected_partial"
   ],
   "note": "Partial. MultiDiGraph round trip for every call history: node order, node attributes, attribute list per pair, degrees; the rotation system is dropped. Undirected graphs get one direction per edge, contrary to the statement (C12_undirected_one_direction)."
  },
  {
   "property": "C13",
   "status": "proved",
   "theorems": [
    "Verif.C13_timesteps",
    "Verif.C13_returns",
    "Verif.C13_input_list",
    "Verif.C13_input_function",
    "Verif.C13_initial_conditions",
    "Verif.C13_nonpositive_never_returns"
   ],
   "note": "timesteps=T: exactly T states, T-1 invocations per node (logging rule, without memoization, topology rule and requests), progress for total rules; input lists and functions; T<1 never returns."
  },
  {
   "property": "C14",
   "status": "proved",
   "theorems": [
    "Verif.C14_synchronous"
   ],
   "note": "Stateless rules that may raise, without requests, perturbation and memoization; copy_network=True or a topology rule that does not mutate in place. Node values given by SpecCtx on the previous activities."
  },
  {
   "property": "C15",
   "status": "proved",
   "theorems": [
    "Verif.C15_timestep",
    "Verif.C15_run"
   ],
   "note": "C15_timestep: for a rule and perturbation that keep no state, memoize off, the two node orders both raise or both give the same mapping label -> activity. C15_run: whole runs (with MemoSafe when memoize is on), without past conditions. A stateful rule can tell the order, and is excluded by the statement."
  },
  {
   "property": "C16",
   "status": "partial",
   "theorems": [
    "Verif.C16_update_order_partial",
    "Verif.C16_shared_network"
   ],
   "note": "Partial: stateless F and G, no memoization, and the network is copied or F does not mutate it in place. With copy_network=False and an in-place F the SYNCHRONOUS equation is false (C16_shared_network)."
  },
  {
   "property": "C17",
   "status": "proved",
   "theorems": [
    "Verif.C17_memoize_transparent"
   ],
   "note": "Stateless rule without requests that may raise and depends on the context only through the key; equality of the whole outcome, exceptions included."
  },
  {
   "property": "C18",
   "status": "proved",
   "theorems": [
    "Verif.C18_default_keys"
   ],
   "note": "Both equivalences for the default keys. That the unordered key is the default without rotation system is in the model (effectiveKey), and its use for order-insensitive rules is C17."
  },
  {
   "property": "C19",
   "status": "proved",
   "theorems": [
    "Verif.C19_past_activities"
   ],
   "note": "Every context of every finished run, through a logging rule; needs copy_network=True or no in-place mutation, and packing that does not raise."
  },
  {
   "property": "C20",
   "status": "proved",
   "theorems": [
    "Verif.C20_flags"
   ],
   "note": "persist_activities, persist_network and compression, without past_conditions as in the statement (copy_network is not varied); packing must not raise. Networks under compression: only if shared networks are not mutated."
  },
  {
   "property": "C21",
   "status": "proved",
   "theorems": [
    "Verif.C21_copy",
    "Verif.C21_compression"
   ],
   "note": "copy_network=True: caller's objects and earlier states unchanged. compression=True: earlier states unchanged for any copy_network. Packing must not raise."
  },
  {
   "property": "C22",
   "status": "proved",
   "theorems": [
    "Verif.C22_requests",
    "Verif.C22_foreign_removal_keeps_activity",
    "Verif.C22_dangling_link_raises",
    "Verif.C22_perturbed_removal_raises"
   ],
   "note": "ACTIVITIES_FIRST, stateless rules with requests that may raise, no topology rule, perturbation or memoization, content that survives msgpack. Network, activities, caller's network and the domain of the activities. The copy drops a rotation system. Witnesses show what happens outside the stated condition (foreign removals, dangling links, perturbed self-removal)."
  },
  {
   "property": "C23",
   "status": "proved",
   "theorems": [
    "Verif.C23_perturbation"
   ],
   "note": "Stateless rules without requests and stateless perturbations, no memoization; copy_network=True or no in-place mutation."
  },
  {
   "property": "C24",
   "status": "proved",
   "theorems": [
    "Verif.C24_input_routing",
    "Verif.C24_bad_item",
    "Verif.C24_input_function"
   ],
   "note": "Every context of every finished run, for timesteps and input lists; C24_input_function for callables. Needs copy_network=True or no in-place mutation. C24_bad_item: an item that the label of the first node cannot index raises TypeError or IndexError (no topology rule)."
  },
  {
   "property": "C25",
   "status": "partial",
   "theorems": [
    "Verif.C25_neighbours_partial",
    "Verif.C25_stale_neighbours"
   ],
   "note": "Proved when no topology rule, or no requests, or not ACTIVITIES_FIRST; false otherwise (C25_stale_neighbours)."
  },
  {
   "property": "C26",
   "status": "proved",
   "theorems": [
    "Verif.C26_size_mismatch"
   ],
   "note": "Error for mismatch with a rule; exact check shown with one timestep."
  },
  {
   "property": "C27",
   "status": "proved",
   "theorems": [
    "Verif.C27_prefix",
    "Verif.C27_restart"
   ],
   "note": "Prefix law for every configuration without in-place mutation of shared networks. Restart law for callables that ignore the timestep, without memoization, past conditions, stale neighbour lists or compression, all states persisted."
  },
  {
   "property": "C28",
   "status": "proved",
   "theorems": [
    "Verif.C28_binary_ca",
    "Verif.C28_out_of_range"
   ],
   "note": "Every length, rule number and binary neighbourhood; both schemes; numbers out of range raise ValueError. The neighbourhood is read by an independent definition of binary numerals."
  },
  {
   "property": "C29",
   "status": "partial",
   "theorems": [
    "Verif.C29_zero_width",
    "Verif.C29_bits_partial"
   ],
   "note": "Partial: proved for widths >= 1, with the exact set of raising arguments. At width 0 the full statement is false (C29_zero_width: int_to_bits(0, 0) raises)."
  },
  {
   "property": "C30",
   "status": "proved",
   "theorems": [
    "Verif.C30_message",
    "Verif.C30_totalistic",
    "Verif.C30_depends_on_sum",
    "Verif.C30_raises_iff"
   ],
   "note": "All 2 <= k <= 36, n, rule numbers >= 0 and neighbourhoods with cells in 0..k-1. Strings are modelled as characters. Negative rule numbers are not modelled."
  },
  {
   "property": "C31",
   "status": "partial",
   "theorems": [
    "Verif.C31_minority",
    "Verif.C31_majority_partial"
   ],
   "note": "Partial: unique modes always; every case from Python 3.8 on. Before 3.8 (the tested versions) a tie may give a minority state: C31_minority refutes the full statement."
  },
  {
   "property": "C32",
   "status": "proved",
   "theorems": [
    "Verif.C32_life"
   ],
   "note": "For a neighbourhood that is a permutation of the cell and binary others. Never falls through to None."
  },
  {
   "property": "C33",
   "status": "proved",
   "theorems": [
    "Verif.C33_wireworld",
    "Verif.C33_states"
   ],
   "note": "All neighbourhoods; also shows that exactly the states 0..3 give a result."
  },
  {
   "property": "C34",
   "status": "partial",
   "theorems": [
    "Verif.C34_message",
    "Verif.C34_collision",
    "Verif.C34_table_partial",
    "Verif.C34_letters"
   ],
   "note": "Partial: at most ten colours. With more, C34_collision refutes injectivity and C34_letters shows that tables made by random_rule_table are never matched."
  },
  {
   "property": "C35",
   "status": "proved",
   "theorems": [
    "Verif.C35_random_table",
    "Verif.C35_draws",
    "Verif.C35_total",
    "Verif.C35_errors"
   ],
   "note": "All arguments with r >= 0 and all random numbers (each draw an arbitrary parameter; random numbers and lambda as exact rationals). C35_total gives the exact domain, C35_errors the errors outside it, C35_draws the role of lambda without constraints."
  },
  {
   "property": "C36",
   "status": "proved",
   "theorems": [
    "Verif.C36_walk",
    "Verif.C36_keeps",
    "Verif.C36_terminates",
    "Verif.C36_few_states"
   ],
   "note": "Tables with k^(2r+1) distinct non-empty keys, mirror-closed if isotropic; all targets, flags and random positions. Termination for every table; no exception for k >= 2; C36_few_states gives the exceptions for no state and for one state. Lambda as exact rational."
  },
  {
   "property": "C37",
   "status": "partial",
   "theorems": [
    "Verif.C37_reversible_partial",
    "Verif.C37_timestep_dependent",
    "Verif.C37_memoized"
   ],
   "note": "The claim as stated is false: C37_timestep_dependent shows a wrapped rule that reads the timestep, and C37_memoized a run with memoize=True, for which the second run does not retrace the first. C37_reversible_partial proves it for every wrapped rule that ignores the timestep and the past (and may raise), all integer activities (Python's unbounded xor), every network whose incoming edges come from nodes of the network, every T >= 2, any non-empty list of past conditions, memoize=False, no compression, activities persisted: if the first run returns then the run from state T-2 with any past conditions ending in state T-1 returns, shows state T-2-s at s, and ends with the first run's last past condition."
  },
  {
   "property": "C38",
   "status": "proved",
   "theorems": [
    "Verif.C38_run",
    "Verif.C38_timestep",
    "Verif.C38_memoized"
   ],
   "note": "C38_run: whole runs without memoization and topology rule; wrapped rule may have state and raise but makes no node requests; inputs, perturbation, past conditions, flags and node iteration order arbitrary; update_order non-empty, without repetitions, made of nodes of the network: same outcome as the run of the rule applied at update_order[(t-1) mod len] only. C38_timestep: one timestep, also for wrapped rules with requests and any network that contains the order. C38_memoized is a concrete run with memoize=True where the behaviour fails (a memo hit does not advance the hidden counter)."
  },
  {
   "property": "C39",
   "status": "partial",
   "theorems": [
    "Verif.C39_one_node_partial",
    "Verif.C39_unfair",
    "Verif.C39_labels_lost"
   ],
   "note": "The claim is false: C39_unfair (reshuffled inside a cycle, node 0 updated twice and node 1 never) and C39_labels_lost (the reshuffled order is made of 0..len-1 whatever the labels were). C39_one_node_partial: for every outcome of the shuffles that permutes the order, exactly one node per timestep is given the rule's value, at position (t-1) mod len of the order in force, which changes after every timestep."
  },
  {
   "property": "C40",
   "status": "proved",
   "theorems": [
    "Verif.C40_ring",
    "Verif.C40_raises",
    "Verif.C40_radius_too_large"
   ],
   "note": "C40_ring: every n>=3, r<=n, i, j. C40_raises: n<3 or boundary other than periodic. C40_radius_too_large: beyond the claim, r>n raises IndexError. n and r natural numbers; entries 0./1. are integers."
  },
  {
   "property": "C41",
   "status": "proved",
   "theorems": [
    "Verif.C41_messages",
    "Verif.C41_moore",
    "Verif.C41_von_neumann",
    "Verif.C41_hex",
    "Verif.C41_raises_iff"
   ],
   "note": "C41_moore, C41_von_neumann: every rows, cols with rows*cols>=9, every radius, every pair of cells. C41_hex gives the Hex offsets as coded. C41_raises_iff also names the boundary argument. Negative dimensions not modelled."
  },
  {
   "property": "C42",
   "status": "partial",
   "theorems": [
    "Verif.C42_ring",
    "Verif.C42_moore",
    "Verif.C42_von_neumann",
    "Verif.C42_hex_partial",
    "Verif.C42_hex_ring",
    "Verif.C42_hex_odd_rows",
    "Verif.C42_hex_radius_two",
    "Verif.C42_in_neighbours"
   ],
   "note": "C42_ring, C42_moore, C42_von_neumann in full. Hex: symmetric for an even number of rows and r<=1 (C42_hex_partial; C42_hex_ring shows that r=1 is the six-neighbourhood in offset coordinates); false for odd rows (C42_hex_odd_rows, 3x5 r=1) and for r=2 (C42_hex_radius_two, 4x5). C42_in_neighbours: the in-neighbours are the row's non-zero entries."
  },
  {
   "property": "C43",
   "status": "proved",
   "theorems": [
    "Verif.C43_left_to_right",
    "Verif.C43_whole_ring"
   ],
   "note": "C43_left_to_right: every n>=3, r with 2r+1<=n, every w. Also: the nodes are exactly 0..n-1. C43_whole_ring adds the case where the neighbourhood covers the ring."
  },
  {
   "property": "C44",
   "status": "partial",
   "theorems": [
    "Verif.C44_centre_partial",
    "Verif.C44_interior",
    "Verif.C44_orders_differ"
   ],
   "note": "C44_centre_partial: 1D (n>=3, r<=n) and all three 2D types (rows*cols>=9, every r): same members as the in-edges, no repetition, node at len//2, one entry per node. The part on the geometric order is false (C44_orders_differ: 4x4 Moore, cells 0 and 5); C44_interior: Moore cells at distance at least r from the border list their neighbours row by row."
  },
  {
   "property": "C45",
   "status": "partial",
   "theorems": [
    "Verif.C45_complete_zero_message",
    "Verif.C45_bipartite",
    "Verif.C45_disconnected",
    "Verif.C45_complete_partial",
    "Verif.C45_complete_one",
    "Verif.C45_complete_zero"
   ],
   "note": "C45_bipartite: disjoint duplicate-free lists, with or without attributes. C45_disconnected: int and list form. C45_complete_partial: n>=2; complete(1) has no node (C45_complete_one), complete(0) raises in networkx (C45_complete_zero). The matrix of nx.complete_graph is an assumption."
  },
  {
   "property": "C46",
   "status": "proved",
   "theorems": [
    "Verif.C46_elementary_ca"
   ],
   "note": "C46_elementary_ca: cellular_automaton(n, r=1, ordered) with n >= 3 and nks_ca_rule(R), R < 256, binary initial conditions, timesteps=T >= 1, with or without memoize (default key), compression off: evolve returns T states that agree with the separate specification eca. Networks are the model's output of the constructor, not an assumption."
  },
  {
   "property": "C47",
   "status": "proved",
   "theorems": [
    "Verif.C47_game_of_life"
   ],
   "note": "C47_game_of_life: cellular_automaton2d with Moore neighbourhood of radius 1 (ordered), rows, cols >= 3, with or without memoize (default key), compression off: evolve returns T states that agree with the separate specification life on the torus."
  },
  {
   "property": "C48",
   "status": "proved",
   "theorems": [
    "Verif.C48_sandpile_run",
    "Verif.C48_memoized_closed",
    "Verif.C48_grains",
    "Verif.C48_total",
    "Verif.C48_nonneg",
    "Verif.C48_stable"
   ],
   "note": "C48_sandpile_run: evolve on Sandpile(rows,cols), rows,cols>=3, shows the toppling rule (memoize allowed for the open boundary; C48_memoized_closed shows that memoize=True with the closed boundary gives a wrong run). C48_total: the sum over the nodes in every returned state is that of the initial conditions (open). C48_grains, C48_nonneg, C48_stable: conservation, closed boundary non-increasing once the edge is empty and the edge is empty after one step, non-negativity, stable piles stay."
  },
  {
   "property": "C49",
   "status": "proved",
   "theorems": [
    "Verif.C49_torus",
    "Verif.C49_raises",
    "Verif.C49_run",
    "Verif.C49_message"
   ],
   "note": "C49_torus: for every shape with at least 9 cells (fewer raise: C49_raises). C49_run: whole runs of a CTRBL rule whose table holds every occurring neighbourhood."
  },
  {
   "property": "C50",
   "status": "proved",
   "theorems": [
    "Verif.C50_rotations",
    "Verif.C50_no_conflict",
    "Verif.C50_rule",
    "Verif.C50_short_key",
    "Verif.C50_plain",
    "Verif.C50_message"
   ],
   "note": "C50_rotations holds with or without conflicting rules (the last rule of an orbit wins in all four positions); C50_no_conflict, C50_rule; keys are 5-tuples as documented (C50_short_key: shorter ones raise IndexError); C50_plain: without add_rotations the table is unchanged."
  },
  {
   "property": "C51",
   "status": "proved",
   "theorems": [
    "Verif.C51_langton",
    "Verif.C51_not_total"
   ],
   "note": "C51_langton is about the literal table of langtons_loop.py (219 rules); it also shows that no two listed rules contradict each other. C51_not_total: the table is partial, as the class comment says."
  },
  {
   "property": "C52",
   "status": "proved",
   "theorems": [
    "Verif.C52_needs_stop_message",
    "Verif.C52_head_centric",
    "Verif.C52_undefined",
    "Verif.C52_forever",
    "Verif.C52_needs_stop",
    "Verif.C52_long_symbols"
   ],
   "note": "C52_head_centric: for every table, tape, start and stop condition, if the machine's computation on the circular tape runs for T states and T-1 is the first stopping time, evolve with the machine's rule, network and input function returns T states holding (state, position), and tape_history is the list of tapes. C52_undefined: an undefined step raises. C52_forever: a machine that never stops never returns. C52_needs_stop: the constructor's check. Symbols are assumed to be read as scalars (ReadsAs); C52_long_symbols proves that symbols that are strings of several characters break the claim. memoize must be off."
  },
  {
   "property": "C53",
   "status": "proved",
   "theorems": [
    "Verif.C53_tape_centric",
    "Verif.C53_undefined",
    "Verif.C53_directions"
   ],
   "note": "C53_tape_centric: for every table, tape of n >= 3 cells and number of timesteps, evolve on the machine's network returns the tape after each step, and the head history is the list of (state, position). C53_undefined: a missing entry raises. C53_directions: directions -1, -2, -3 are accepted by the tape-centric machine (Python's negative indices) and refused by the head-centric one. memoize must be off."
  },
  {
   "property": "C54",
   "status": "proved",
   "theorems": [
    "Verif.C54_init",
    "Verif.C54_system",
    "Verif.C54_run",
    "Verif.C54_to_string",
    "Verif.C54_pad",
    "Verif.C54_empty_word",
    "Verif.C54_reuse"
   ],
   "note": "C54_run: for every axiom, rule map, constants, number of timesteps: a run of a newly constructed system shows at every timestep the word obtained by rewriting all windows of the word before (consecutive labels, in order), and raises exactly what the first failing window raises. Hypotheses: keys not empty (length m >= 1; with the empty key every node has a neighbour and the code erases everything), evolve called as documented (ACTIVITIES_FIRST default, no memoize, activities kept and uncompressed), labels and attributes survive Network.copy. A timestep with the empty word has activities None (C54_empty_word). C54_init / C54_system: constructor; C54_to_string / C54_pad: the two renderings, including when they raise. C54_reuse: evolving the same object again after a run of two timesteps raises KeyError (counter not reset), so the property holds for new systems only."
  },
  {
   "property": "C55",
   "status": "partial",
   "theorems": [
    "Verif.C55_order",
    "Verif.C55_relations",
    "Verif.C55_round_trip_partial",
    "Verif.C55_ten_relations"
   ],
   "note": "C55_order (all configurations): reading the network back gives the non-empty relations in the string order of their decimal numbers; C55_relations: exactly the non-empty relations with multiplicity. The same order is proved for at most 9 relations (C55_round_trip_partial) and refuted for ten (C55_ten_relations), because '10' < '2'."
  },
  {
   "property": "C56",
   "status": "proved",
   "theorems": [
    "Verif.C56_succeeds_iff",
    "Verif.C56_failure",
    "Verif.C56_success"
   ],
   "note": "Success iff an assignment agreeing with the bindings maps the pattern to the relation; failure leaves the dict exactly as it was; success keeps the old bindings and binds exactly the pattern's symbols."
  },
  {
   "property": "C57",
   "status": "proved",
   "theorems": [
    "Verif.C57_rewrite",
    "Verif.C57_single_complete",
    "Verif.C57_empty_lhs",
    "Verif.C57_run",
    "Verif.C57_run_total"
   ],
   "note": "For every non-empty left-hand side: the while loop ends, matched groups are instances of the left-hand side with bindings of exactly its symbols, disjoint as a multiset partition of the configuration; new configuration = rest + instantiated right-hand sides; C57_run lifts this to whole evolve runs, which can only fail because a configuration without nodes arises; C57_run_total: they never fail if the right-hand side has a node. An empty left-hand side never terminates (C57_empty_lhs). For one-pattern rules no match is left (C57_single_complete); with two patterns matches can be missed (example), which the property does not exclude."
  },
  {
   "property": "C58",
   "status": "proved",
   "theorems": [
    "Verif.C58_fresh",
    "Verif.C58_counter",
    "Verif.C58_topology_rule"
   ],
   "note": "Open symbols get nodes that are pairwise different over all matches and symbols and occur nowhere in the configuration; for topology_rule on the network of any configuration with the counter that belongs to it, and (C57_run) along runs."
  },
  {
   "property": "C59",
   "status": "proved",
   "theorems": [
    "Verif.C59_hebb",
    "Verif.C59_same_length"
   ],
   "note": "C59_hebb covers pattern lists of any lengths (a pattern longer than the first, or no pattern, raises IndexError); C59_same_length is the usual case. Integers unbounded."
  },
  {
   "property": "C60",
   "status": "proved",
   "theorems": [
    "Verif.C60_energy",
    "Verif.C60_isolated_unit",
    "Verif.C60_memoized"
   ],
   "note": "C60_energy: every training set of patterns of length n, every initial +-1 list of n activities, every sequence of shuffles; explicit trajectory and energy; if a unit is isolated, from_adjacency_matrix drops it and evolve raises. C60_isolated_unit: with a dict of conditions for the remaining units the run succeeds but two units can be updated at once and the energy can rise. Without memoization, topology rule and perturbation. C60_memoized: with memoization the energy can rise."
  },
  {
   "property": "C61",
   "status": "proved",
   "theorems": [
    "Verif.C61_fixed",
    "Verif.C61_inverse",
    "Verif.C61_memoized"
   ],
   "note": "C61_fixed; C61_inverse shows that the inverted pattern is a fixed point as well. Both without memoization, topology rule and perturbation; C61_memoized: the same for both patterns with or without memoization (default key)."
  },
  {
   "property": "C62",
   "status": "proved",
   "theorems": [
    "Verif.C62_coordinates"
   ],
   "note": "Every number of points; both maps."
  },
  {
   "property": "C63",
   "status": "proved",
   "theorems": [
    "Verif.C63_tour",
    "Verif.C63_shape"
   ],
   "note": "C63_tour: every square matrix over any totally ordered type and every list of as many points, at least one; the position of a row is the column of its first maximum. The graph is the list of the edges added by the loop (a networkx Graph merges the two equal edges when there are two points). C63_shape: the assertions on the shape."
  },
  {
   "property": "C64",
   "status": "proved",
   "theorems": [
    "Verif.C64_distances",
    "Verif.C64_rule",
    "Verif.C64_run",
    "Verif.C64_one_point"
   ],
   "note": "Over any commutative ring, with sqrt and the output function V as parameters (floats are not modelled). C64_distances: every list of points. C64_rule: one update, n >= 2 points, neighbours in any order; C64_run: evolve on from_adjacency_matrix of the net shows the iterated equation, without memoization. C64_one_point: with one point the rule raises KeyError. The constant subtracted from the total is the hyperparameter n, not the number of points."
  },
  {
   "property": "C65",
   "status": "proved",
   "theorems": [
    "Verif.C65_error",
    "Verif.C65_brackets",
    "Verif.C65_pop",
    "Verif.C65_raises",
    "Verif.C65_forward",
    "Verif.C65_connected",
    "Verif.C65_length"
   ],
   "note": "C65_brackets: any balanced program between push and pop restores position, orientation and stack. C65_pop, C65_raises: pop raises exactly on an empty stack; a program raises exactly when a prefix pops more than was pushed. C65_forward, C65_connected: one segment per forward, runs of moves are chains. C65_length: segments have the length of the distance, for exact sine and cosine over the rationals. Sine and cosine are abstract functions; rounding is not modelled."
  },
  {
   "property": "C66",
   "status": "proved",
   "theorems": [
    "Verif.C66_formula",
    "Verif.C66_bounds",
    "Verif.C66_empty",
    "Verif.C66_zero_iff",
    "Verif.C66_uniform",
    "Verif.C66_invariant",
    "Verif.C66_average",
    "Verif.C66_average_empty",
    "Verif.C66_average_joined"
   ],
   "note": "For every string over any alphabet (floats as reals): the p*log2(1/p) formula, 0 <= H <= log2(number of different symbols), H = 0 iff at most one symbol occurs, equality for uniform frequencies, invariance under permutation and one-to-one renaming. Also average_node_entropy is the mean of the column entropies; C66_average_joined records that multi-character states run together."
  },
  {
   "property": "C67",
   "status": "proved",
   "theorems": [
    "Verif.C67_joint_formula",
    "Verif.C67_joint_bounds",
    "Verif.C67_nonneg",
    "Verif.C67_symmetric",
    "Verif.C67_self",
    "Verif.C67_unequal"
   ],
   "note": "For every pair of strings of equal length and every visiting order of the sets: joint entropy formula, marginal <= joint <= sum, mutual information symmetric, >= 0, <= each entropy, and equal to the entropy for identical strings. C67_unequal: other lengths (both >= 2) raise ValueError. Floats as reals."
  },
  {
   "property": "C68",
   "status": "partial",
   "theorems": [
    "Verif.C68_returns_iff",
    "Verif.C68_value",
    "Verif.C68_false",
    "Verif.C68_false_accepts",
    "Verif.C68_square_partial"
   ],
   "note": "FALSE as stated: the check compares with the number of nodes, not time steps. C68_false and C68_false_accepts are the witnesses, C68_returns_iff gives the actual condition for every input, C68_value the value, C68_square_partial the documented check when there are as many nodes as time steps."
  },
  {
   "property": "C69",
   "status": "proved",
   "theorems": [
    "Verif.C69_messages",
    "Verif.C69_ncr",
    "Verif.C69_pascal"
   ],
   "note": "C69_ncr: equals the number of r-element sublists of range(n) (mem_selections, selections_nodup characterise them), 0 for r > n; raises exactly for negative integers. C69_pascal: Pascal's rule. Non-int arguments are not modelled."
  },
  {
   "property": "C70",
   "status": "proved",
   "theorems": [
    "Verif.C70_errors",
    "Verif.C70_binarize",
    "Verif.C70_raises"
   ],
   "note": "C70_binarize: rows of binary digits with the given values, all of the least sufficient width. C70_raises: raises exactly on an empty list, an empty row or a negative number."
  },
  {
   "property": "C71",
   "status": "proved",
   "theorems": [
    "Verif.C71_simple_errors",
    "Verif.C71_random_errors",
    "Verif.C71_init_simple",
    "Verif.C71_init_simple2d",
    "Verif.C71_init_random",
    "Verif.C71_init_random_range"
   ],
   "note": "C71_init_simple, C71_init_simple2d, C71_init_random, C71_init_random_range; including when they raise (size <= 0 raises for init_simple). init_random for k >= 1 and every outcome of the generator; dtype conversions are not modelled. C71_random_errors leaves out k <= 0 without randomized sites."
  },
  {
   "property": "C72",
   "status": "partial",
   "theorems": [
    "Verif.C72_run",
    "Verif.C72_run_nat",
    "Verif.C72_skips",
    "Verif.C72_rows_partial",
    "Verif.C72_skip_rows"
   ],
   "note": "C72_skips: the claim is false for trajectories with states that have no activities (such states are skipped, so rows shift). C72_rows_partial: it holds when every state has activities. C72_skip_rows: in general the rows are those of the states with activities. C72_run, C72_run_nat: the rows of the result of a call that keeps the activities (ShowsOn, ShowsRun)."
  },
  {
   "property": "C73",
   "status": "proved",
   "theorems": [
    "Verif.C73_torus",
    "Verif.C73_probability",
    "Verif.C73_topology_rule",
    "Verif.C73_weights",
    "Verif.C73_run"
   ],
   "note": "C73_run: a run on any lattice in which no node has more than four links, with any random numbers (an arbitrary sequence), any order of the links (may change per timestep), any number of timesteps and either value of copy_network does not raise; in every state each link carries at most one edge and each edge has weight 1/out-degree (Fungal), and each state arises from the one before by the specified growth (FStep, Growth). C73_probability: the growth probability is in (0,1]. C73_weights: outgoing weights sum to 1. C73_torus: the torus of any width and height is such a lattice. Rational arithmetic; networkx's grid_graph is not modelled, so that the links are those of Torus is read off, not proved."
  },
  {
   "property": "C74",
   "status": "proved",
   "theorems": [
    "Verif.C74_balance",
    "Verif.C74_collapsed",
    "Verif.C74_layer",
    "Verif.C74_step"
   ],
   "note": "C74_balance: for any valid network without rotation system on the nodes 0..n-1 whose edges have weights, and any activities: the new activities and their sum, for one evolution of activities (memoize off, no perturbation). Of parallel edges only the oldest counts. C74_collapsed and C74_step: the sum for the networks that occur in runs (C73_run). C74_layer: the resource layer. Rational arithmetic."
  },
  {
   "property": "C75",
   "status": "proved",
   "theorems": [
    "Verif.C75_unbound_error",
    "Verif.C75_render",
    "Verif.C75_state",
    "Verif.C75_unbound",
    "Verif.C75_stack"
   ],
   "note": "C75_render: rendering executes the instructions of the symbols in order. C75_state: the symbols are those of the state in label order. C75_unbound: an unbound symbol raises. C75_stack: with [ and ] bound to push and pop and every other symbol to a balanced list of methods, a balanced string does not raise and leaves the stack as it was."
  },
  {
   "property": "C76",
   "status": "proved",
   "theorems": [
    "Verif.C76_light_cone"
   ],
   "note": "C76_light_cone: two finished runs of any LocalRule (reads only the node and its neighbourhood, may raise) on any fixed network whose incoming edges come from its nodes; initial conditions that agree on every node within t links of x give equal activity of x in state t. With memoize the rule must satisfy MemoSafe (as in C17)."
  },
  {
   "property": "C77",
   "status": "proved",
   "theorems": [
    "Verif.C77_translation"
   ],
   "note": "C77_translation: cellular_automaton(n, r) for every n >= 3, r <= n (ordered ring), any HomogeneousRule that may raise; if the run from s returns, the run from s shifted by k returns and shows the shifted states. With memoize the rule must depend only on the neighbour activities (the default key). nks_homogeneous shows nks_ca_rule is such a rule."
  },
  {
   "property": "C78",
   "status": "proved",
   "theorems": [
    "Verif.C78_lattice",
    "Verif.C78_periodic_zero",
    "Verif.C78_symmetric",
    "Verif.C78_degree"
   ],
   "note": "C78_lattice: all dimensions (0 excluded only if periodic), both flags, every first label, every order and orientation in which the grid graph reports its edges (each link once). C78_periodic_zero: the IndexError. C78_degree: two neighbours per dimension in periodic lattices of sizes >= 3. networkx's grid_graph, path_graph, cycle_graph, cartesian_product and the relabelling are modelled from their documented behaviour."
  },
  {
   "property": "C79",
   "status": "partial",
   "theorems": [
    "Verif.C79_self_loops_partial",
    "Verif.C79_no_loops",
    "Verif.C79_false"
   ],
   "note": "False as documented: C79_false (a line of three nodes has no loops), C79_no_loops (no loops unless periodic with a dimension of size 1). C79_self_loops_partial proves the remaining case: each node then has two parallel loops."
  },
  {
   "property": "C80",
   "status": "partial",
   "theorems": [
    "Verif.C80_activities_partial",
    "Verif.C80_network_partial",
    "Verif.C80_empty_activities",
    "Verif.C80_empty_network",
    "Verif.C80_new"
   ],
   "note": "False for empty values: C80_empty_activities and C80_empty_network (assigning an empty dict or network leaves the previous value). C80_activities_partial: every other dict (with compression: whose content survives packing) is read back, from any previous state. C80_network_partial: every other network; a snapshot without rotation system with compression, otherwise the object's present content, None if it has become empty. C80_new: a new state returns None."
  },
  {
   "property": "C81",
   "status": "proved",
   "theorems": [
    "Verif.C81_init_loops",
    "Verif.C81_raises",
    "Verif.C81_one_loop"
   ],
   "note": "For every grid and every list of positions, including overlapping loops and negative indices; C81_raises is the exact converse; C81_one_loop gives the picture for one loop."
  },
  {
   "property": "C82",
   "status": "proved",
   "theorems": [
    "Verif.C82_replicates"
   ],
   "note": "All torus sizes from 17 x 28 on and all positions for which init_loops returns; the run is the model of evolve. The 151 steps themselves are one kernel computation on a 17 x 28 window, transferred to every torus by window_torus."
  },
  {
   "property": "C83",
   "status": "proved",
   "theorems": [
    "Verif.C83_tape",
    "Verif.C83_head",
    "Verif.C83_second_run"
   ],
   "note": "C83_tape and C83_head: through evolve, for every table, tape and run for which the computation is defined (missing rules raise, C52/C53). C83_tape is for a new machine object; C83_second_run shows that a second run with the same object makes head_activities raise IndexError."
  },
  {
   "property": "C84",
   "status": "partial",
   "theorems": [
    "Verif.C84_drawn",
    "Verif.C84_raises",
    "Verif.C84_no_overlap",
    "Verif.C84_touch_partial",
    "Verif.C84_linked_partial",
    "Verif.C84_odd_rows"
   ],
   "note": "False for odd numbers of rows: C84_odd_rows gives, for every odd rows >= 3 and cols >= 3, two hexagons that touch but are not linked and two linked ones that do not touch. C84_touch_partial and C84_linked_partial prove the claim for even numbers of rows; C84_drawn, C84_raises (only that some error is raised) and C84_no_overlap hold for all sizes. C84_drawn and C84_raises are for a given shape. Centres are exact real numbers, not floats."
  },
  {
   "property": "C85",
   "status": "partial",
   "theorems": [
    "Verif.C85_bars",
    "Verif.C85_empty",
    "Verif.C85_all_counted_partial",
    "Verif.C85_isolated"
   ],
   "note": "False in one clause: C85_isolated (a node without edges has no bar, so the heights do not add up to the number of nodes). C85_bars proves positions and heights for every non-empty network and all flags, C85_empty the error, C85_all_counted_partial that heights plus nodes of degree 0 add up."
  },
  {
   "property": "C86",
   "status": "partial",
   "theorems": [
    "Verif.C86_poincare",
    "Verif.C86_poincare_small",
    "Verif.C86_poincare_raises",
    "Verif.C86_bifurcation_partial",
    "Verif.C86_zero"
   ],
   "note": "False for bifurcation_plot with timesteps = 0 (C86_zero: the whole trajectory is drawn). C86_poincare, C86_poincare_small and C86_poincare_raises cover every number of timesteps; C86_bifurcation_partial is for timesteps >= 1, with any total preorder given as a Bool function (np.unique is modelled as removal of repetitions and a merge sort)."
  },
  {
   "property": "C87",
   "status": "proved",
   "theorems": [
    "Verif.C87_one_dim",
    "Verif.C87_two_dim",
    "Verif.C87_raises"
   ],
   "note": "For states of equal length and shapes of natural numbers (numpy also accepts -1, and ragged lists behave differently). C87_one_dim needs at least one state; C87_raises gives the error of each other case."
  },
  {
   "property": "C88",
   "status": "partial",
   "theorems": [
    "Verif.C88_positions",
    "Verif.C88_demo_partial",
    "Verif.C88_transposed"
   ],
   "note": "False as stated: C88_transposed, for all n_x != n_y from 2 on. C88_positions holds for all sizes; C88_demo_partial proves the equivalence for lattice((1, n_y, n_x)), the call in the demos."
  },
  {
   "property": "C89",
   "status": "proved",
   "theorems": [
    "Verif.C89_configuration",
    "Verif.C89_html"
   ],
   "note": "C89_configuration: nodes, their order, and the list of parallel edges (all without attributes) for every pair. C89_html: for every list of edges; the text of the HTML page is not modelled."
  },
  {
   "property": "C90",
   "status": "proved",
   "theorems": [
    "Verif.C90_language",
    "Verif.C90_accepts",
    "Verif.C90_needs_end"
   ],
   "note": "C90_accepts is the claim for words with the end marker; C90_language says for every string when the run returns and what the last state is. C90_needs_end: without the end marker the run also returns on prefixes such as 'aab', so that the demo's message 'input accepted' depends on the marker. The stack is the user state of the rule; one node, input list of one-character items."
  },
  {
   "property": "C91",
   "status": "proved",
   "theorems": [
    "Verif.C91_turnstile"
   ],
   "note": "For every string and every configuration without perturbation, topology rule and memoization. With memoize=True the default key ignores the input and the claim would fail; not stated."
  },
  {
   "property": "C92",
   "status": "proved",
   "theorems": [
    "Verif.C92_reaches_one",
    "Verif.C92_never"
   ],
   "note": "C92_reaches_one and C92_never together cover every integer. Exact integers: the Python code divides with `/` and so computes with floats, which agree only below 2^53."
  },
  {
   "property": "C93",
   "status": "proved",
   "theorems": [
    "Verif.C93_run",
    "Verif.C93_replicates",
    "Verif.C93_copies"
   ],
   "note": "C93_run: the states are the automaton (any p). C93_replicates and C93_copies: the state p^k for prime p, proved with the Frobenius identity in the ring of translations. Unbounded integers instead of int64."
  },
  {
   "property": "C94",
   "status": "proved",
   "theorems": [
    "Verif.C94_run",
    "Verif.C94_links",
    "Verif.C94_simple",
    "Verif.C94_few"
   ],
   "note": "C94_run: for every oracle of draws that returns two different elements of the list of nodes (DrawsTwo) the run returns T states, and state t is the network of attachLinks t, a five-line specification; C94_links, C94_simple: facts about these links and networks; C94_few: ValueError for n < 2. Default values of copy_network, persist_network, compression."
  },
  {
   "property": "C95",
   "status": "proved",
   "theorems": [
    "Verif.C95_run1",
    "Verif.C95_tree",
    "Verif.C95_run2",
    "Verif.C95_links2",
    "Verif.C95_undirected",
    "Verif.C95_demo"
   ],
   "note": "C95_run1, C95_run2: the runs of both models for every oracle (DrawsOne, DrawsTwo, any coin); C95_tree: one link to an older node per added node, all nodes connected to the first n; C95_links2, C95_undirected; C95_demo: started with from_adjacency_matrix([[1]]) as in the demo, 2t+1 edges, all nodes connected to node 0."
  },
  {
   "property": "C96",
   "status": "proved",
   "theorems": [
    "Verif.C96_run",
    "Verif.C96_missing",
    "Verif.C96_undirected",
    "Verif.C96_within",
    "Verif.C96_simple",
    "Verif.C96_quiescent"
   ],
   "note": "C96_run: every run (networks given as valid multigraphs, msgpack exact on their labels and attributes) satisfies RestrictedNext at each timestep; C96_undirected, C96_within, C96_simple, C96_quiescent follow from RestrictedNext alone; C96_missing: KeyError if the first node of the underlying network is not in the network. networkx's lattice is not needed: the underlying network is arbitrary."
  },
  {
   "property": "C97",
   "status": "proved",
   "theorems": [
    "Verif.C97_run",
    "Verif.C97_four",
    "Verif.C97_size",
    "Verif.C97_sizes",
    "Verif.C97_connected",
    "Verif.C97_triangle",
    "Verif.C97_demo"
   ],
   "note": "C97_run: every run from a valid network that is Cubic, has FreshLabels and at least one node (msgpack exact on strings) returns T Cubic networks, consecutive ones related by Truncated; C97_size, C97_sizes, C97_triangle, C97_connected follow from Truncated and Cubic alone; C97_demo is the run of the demo for every number of timesteps; C97_four: IndexError if the first node has at least four neighbours (the first three different from itself)."
  },
  {
   "property": "C98",
   "status": "proved",
   "theorems": [
    "Verif.C98_run",
    "Verif.C98_parallel",
    "Verif.C98_active",
    "Verif.C98_vanish",
    "Verif.C98_dissolved",
    "Verif.C98_lattice"
   ],
   "note": "C98_run: states of every run from a valid network without rotation system, parallel edges, with at least one node, initial activities 0 or 1 for every node and none for others (labels and attributes exact under msgpack) are SpreadStates; C98_lattice: the same in coordinates for every lattice that is not periodic with at least two nodes and only node 0 active; C98_active, C98_vanish, C98_dissolved follow from SpreadState alone; C98_parallel: KeyError for two parallel edges whose ends are both active after the first timestep."
  },
  {
   "property": "C99",
   "status": "proved",
   "theorems": [
    "Verif.C99_linear_convection",
    "Verif.C99_nonlinear_convection",
    "Verif.C99_diffusion",
    "Verif.C99_burgers",
    "Verif.C99_simple_diffusion",
    "Verif.C99_zero_division",
    "Verif.C99_conserved",
    "Verif.C99_convection_bounds",
    "Verif.C99_diffusion_bounds",
    "Verif.C99_burgers_bounds",
    "Verif.C99_inviscid",
    "Verif.C99_shift",
    "Verif.C99_demos",
    "Verif.C99_limits"
   ],
   "note": "Five run theorems (RingCall: Ordinary call on cellular_automaton(n), n >= 3, radius 1, one initial value per node, memoize arbitrary), C99_conserved, C99_convection_bounds, C99_diffusion_bounds, C99_burgers_bounds (with C99_inviscid for nonlinear convection), C99_shift, C99_zero_division, C99_demos (constants of the demos), C99_limits (the bounds and conservation fail outside the conditions). Numbers are exact rationals, the code uses floats."
  },
  {
   "property": "C100",
   "status": "proved",
   "theorems": [
    "Verif.C100_run",
    "Verif.C100_no_past",
    "Verif.C100_energy",
    "Verif.C100_total",
    "Verif.C100_reverse",
    "Verif.C100_run_back",
    "Verif.C100_memoized"
   ],
   "note": "C100_run, C100_energy, C100_total, C100_reverse, C100_run_back (a second call of evolve), C100_no_past, C100_memoized (why memoize = false is assumed). Numbers are exact rationals, the code uses floats."
  },
  {
   "property": "C101",
   "status": "proved",
   "theorems": [
    "Verif.C101_run",
    "Verif.C101_conserved",
    "Verif.C101_bounded",
    "Verif.C101_euler_energy",
    "Verif.C101_documentation"
   ],
   "note": "C101_run (Ordinary call on the network of from_adjacency_matrix([[1]]), memoize arbitrary), C101_conserved, C101_bounded, C101_euler_energy, C101_documentation (equal trajectories iff dt = 0 or the start is the origin; disagreement 48). Numbers are exact rationals, the code uses floats."
  },
  {
   "property": "C102",
   "status": "proved",
   "theorems": [
    "Verif.C102_run",
    "Verif.C102_network",
    "Verif.C102_rows",
    "Verif.C102_symmetry",
    "Verif.C102_axis",
    "Verif.C102_fixed",
    "Verif.C102_memoized"
   ],
   "note": "C102_run (Network(1)) and C102_network (lorenzNetwork), memoize = false, which is the demos' default; C102_rows, C102_symmetry, C102_axis, C102_fixed (a, dt not 0), C102_memoized (memoize = true freezes the first demo). Numbers are exact rationals, the code uses floats."
  },
  {
   "property": "C103",
   "status": "proved",
   "theorems": [
    "Verif.C103_run",
    "Verif.C103_memoized",
    "Verif.C103_unit",
    "Verif.C103_extinction",
    "Verif.C103_fixed",
    "Verif.C103_period_two",
    "Verif.C103_no_loop",
    "Verif.C103_shared_key"
   ],
   "note": "C103_run (memoize = false), C103_memoized (equal rates, memoize arbitrary), C103_shared_key (memoize = true with different rates is wrong), C103_unit, C103_extinction, C103_fixed, C103_period_two, C103_no_loop. Numbers are exact rationals, the code uses floats."
  },
  {
   "property": "C104",
   "status": "proved",
   "theorems": [
    "Verif.C104_run",
    "Verif.C104_no_neighbours",
    "Verif.C104_unit",
    "Verif.C104_bounded",
    "Verif.C104_dyadic",
    "Verif.C104_light_cone"
   ],
   "note": "C104_run (RingCall, memoize arbitrary), C104_unit, C104_bounded, C104_dyadic, C104_light_cone (for every scheme on a ring), C104_no_neighbours. Numbers are exact rationals, the code uses floats."
  },
  {
   "property": "C105",
   "status": "proved",
   "theorems": [
    "Verif.C105_run",
    "Verif.C105_balance",
    "Verif.C105_conserved",
    "Verif.C105_steady",
    "Verif.C105_bounds"
   ],
   "note": "C105_run (memoize arbitrary), C105_balance, C105_conserved, C105_steady, C105_bounds (one step). Numbers are exact rationals, the code uses floats."
  },
  {
   "property": "C106",
   "status": "proved",
   "theorems": [
    "Verif.C106_compose",
    "Verif.C106_memoized",
    "Verif.C106_cone",
    "Verif.C106_demo",
    "Verif.C106_speed",
    "Verif.C106_front"
   ],
   "note": "C106_compose (rules and perturbations with state, memoize = false; the rule may request additions and removals, but not the removal of its own node), C106_memoized (with memoization composing is wrong: the table would keep perturbed activities), C106_cone (stateless LocalRule, fixed network, stateless perturbations; memoize arbitrary if the key is safe), C106_demo (memoize arbitrary; draws as a function of the timestep), C106_speed, C106_front (rule 30: the change of one cell reaches the cell t places to the right at step t while 2 t < n)."
  },
  {
   "property": "C107",
   "status": "proved",
   "theorems": [
    "Verif.C107_forward",
    "Verif.C107_read",
    "Verif.C107_demo",
    "Verif.C107_no_edge"
   ],
   "note": "C107_forward (any n >= 1 and T >= 1; every edge has an initial weight; codecs exact on labels and weights; weights as exact rationals), C107_read, C107_demo (n x n, n x n and m x n matrices with m <= n), C107_no_edge (weights of timestep 1). The files themselves and the softmax are not modelled."
  },
  {
   "property": "C108",
   "status": "proved",
   "theorems": [
    "Verif.C108_camel_minimum",
    "Verif.C108_global",
    "Verif.C108_local",
    "Verif.C108_isolated",
    "Verif.C108_sphere",
    "Verif.C108_camel"
   ],
   "note": "C108_global (static network without rotation system, any labels; draws are a function of timestep and node; vectors of one length, exact rationals; objective any function), C108_local (static or dynamic networks, all with the same list of nodes and a neighbour for every node; for dynamic ones the codecs are exact and the order ACTIVITIES_FIRST, as in the demo), C108_isolated (static network). What the input functions print is not modelled, only that they raise without particles. C108_sphere and C108_camel are about the two objective functions of the demos (exact arithmetic). C108_camel_minimum: the camel function is never below -1.032 and below -1.0316 at the two points named in pso_demo.py:17 (exact arithmetic); that no other point has a lower value than these two is not shown."
  },
  {
   "property": "C109",
   "status": "proved",
   "theorems": [
    "Verif.C109_read",
    "Verif.C109_biases",
    "Verif.C109_init",
    "Verif.C109_gibbs",
    "Verif.C109_demo",
    "Verif.C109_missing"
   ],
   "note": "C109_gibbs (at least one unit per layer, T >= 1, memoize False; the result of binomial(1, sigmoid(x)) is an arbitrary function of timestep, node and x; exact rationals), C109_demo (files to images), C109_read, C109_biases, C109_init, C109_missing. The labels '3v', '3h' are .v 3, .h 3; sigmoid and the distribution of the draws are not modelled."
  },
  {
   "property": "C110",
   "status": "proved",
   "theorems": [
    "Verif.C110_run",
    "Verif.C110_speed",
    "Verif.C110_upwards",
    "Verif.C110_first",
    "Verif.C110_frames",
    "Verif.C110_one_way"
   ],
   "note": "C110_run (n >= 1, T >= 1; no boid wishes for speed 0, where the code goes on with nan; label codec exact; the square root is an arbitrary function; distances compared by their squares; exact rationals), C110_speed (root exact at the value), C110_upwards, C110_first, C110_frames, C110_one_way (witness for disagreement 50)."
  },
  {
   "property": "C111",
   "status": "proved",
   "theorems": [
    "Verif.C111_rest",
    "Verif.C111_order",
    "Verif.C111_drops",
    "Verif.C111_spill",
    "Verif.C111_run",
    "Verif.C111_demo",
    "Verif.C111_open"
   ],
   "note": "C111_rest, C111_order, C111_drops (pile with non-negative cells off the edge and fewer than four grains on the edge), C111_spill (removes the condition on the edge from state 1 on), C111_run (evolve with any perturbation that adds drop(t, cell); not memoized), C111_demo (the demo: one grain at one cell off the edge; any edge), C111_open (open boundary). Numbers of grains are integers."
  },
  {
   "property": "C112",
   "status": "proved",
   "theorems": [
    "Verif.C112_run",
    "Verif.C112_period_two",
    "Verif.C112_ring",
    "Verif.C112_matrix",
    "Verif.C112_conditions"
   ],
   "note": "C112_run, C112_period_two (any network; neighbourhoods given by specNbrs and OddUndirected), C112_ring (cellular_automaton), C112_matrix (from_adjacency_matrix of a symmetric matrix, as watts_strogatz_graph builds), C112_conditions (period three on a directed cycle, and with ties from Python 3.8 on; not memoized). networkx's choice of the small-world graph is not modelled: any symmetric matrix is allowed, but all its rows must have an odd number of non-zero entries, which the demo's graph need not have."
  },
  {
   "property": "C113",
   "status": "proved",
   "theorems": [
    "Verif.C113_run",
    "Verif.C113_palindrome",
    "Verif.C113_demo",
    "Verif.C113_periodic",
    "Verif.C113_eventually_periodic"
   ],
   "note": "C113_run, C113_demo (two calls of evolve, any rule number, size, initial state, first call of K+2 timesteps; not memoized, see C37_memoized), C113_palindrome, C113_periodic, C113_eventually_periodic (about the automata that C113_run and C46 show evolve to compute)."
  },
  {
   "property": "C114",
   "status": "proved",
   "theorems": [
    "Verif.C114_words",
    "Verif.C114_morphism",
    "Verif.C114_run",
    "Verif.C114_thue_morse",
    "Verif.C114_fibonacci"
   ],
   "note": "C114_words and C114_morphism (any alphabet on which every symbol has a replacement inside the alphabet), C114_run (end to end; replacements not empty, as an empty row has no activities, see C54_empty_word), C114_thue_morse and C114_fibonacci (the demos, any number of timesteps)."
  },
  {
   "property": "C115",
   "status": "proved",
   "theorems": [
    "Verif.C115_render",
    "Verif.C115_koch",
    "Verif.C115_sierpinski",
    "Verif.C115_real_quarter",
    "Verif.C115_real_third",
    "Verif.C115_tree",
    "Verif.C115_plant",
    "Verif.C115_moore"
   ],
   "note": "C115_render (row t renders the string grown in t steps), C115_koch, C115_sierpinski (any commutative ring), C115_moore (integers), C115_tree, C115_plant; C115_real_quarter and C115_real_third: the real sine and cosine meet the hypotheses. The floats of math.sin and math.cos meet them only approximately: the rounding of the drawn points is outside the model."
  },
  {
   "property": "C116",
   "status": "proved",
   "theorems": [
    "Verif.C116_ship",
    "Verif.C116_plane",
    "Verif.C116_apart",
    "Verif.C116_evolve",
    "Verif.C116_glider",
    "Verif.C116_demo"
   ],
   "note": "C116_plane (the step of the plane is Conway's rule at every cell), C116_ship, C116_evolve and C116_glider (any place), C116_apart (two sets of patterns), C116_demo (at most 184 timesteps: the bound is a hypothesis of the demo's theorem, whose patterns meet later; the demo asks for 60). That three concrete patterns come back and stay apart is a finite computation checked by the kernel."
  },
  {
   "property": "C117",
   "status": "proved",
   "theorems": [
    "Verif.C117_accepts",
    "Verif.C117_head_accepts",
    "Verif.C117_head_rejects",
    "Verif.C117_head_forever",
    "Verif.C117_tape",
    "Verif.C117_empty_word"
   ],
   "note": "C117_accepts (the configurations, both directions), C117_head_accepts, C117_head_rejects, C117_head_forever (evolve on the head-centric machine), C117_tape (evolve on the tape-centric machine; it needs a tape of at least 3 cells, as C53), C117_empty_word (the empty word is accepted although the comment says n > 0: disagreement 51)."
  },
  {
   "property": "C118",
   "status": "proved",
   "theorems": [
    "Verif.C118_rows",
    "Verif.C118_records",
    "Verif.C118_head",
    "Verif.C118_tape",
    "Verif.C118_same",
    "Verif.C118_needs_room"
   ],
   "note": "C118_rows (configurations), C118_records (the times of the rows are exactly the records of the head position), C118_head and C118_tape (evolve, the annotations and the loop of demos 1c and 2c: the tapes kept are the rows; of the annotations kept only the number is stated), C118_same (the rows are those of evolve with nks_ca_rule(110) on a ring, C46), C118_needs_room (without room on the left the emulation breaks)."
  },
  {
   "property": "C119",
   "status": "proved",
   "theorems": [
    "Verif.C119_wiring",
    "Verif.C119_evolve",
    "Verif.C119_sets",
    "Verif.C119_loop",
    "Verif.C119_diodes",
    "Verif.C119_xor"
   ],
   "note": "C119_evolve (the automaton), C119_sets (heads and tails as sets), C119_wiring, C119_loop (closed wires), C119_diodes and C119_xor (the circuits of the demos, for every number of timesteps)."
  },
  {
   "property": "C120",
   "status": "proved",
   "theorems": [
    "Verif.C120_run",
    "Verif.C120_sweeps",
    "Verif.C120_period",
    "Verif.C120_triangle",
    "Verif.C120_demo"
   ],
   "note": "C120_run (every rule and order), C120_sweeps, C120_period and C120_triangle (rule 60), C120_demo (the rows plotted by the demo)."
  },
  {
   "property": "C121",
   "status": "proved",
   "theorems": [
    "Verif.C121_run",
    "Verif.C121_no_rule",
    "Verif.C121_no_local_rule",
    "Verif.C121_demo_fooled"
   ],
   "note": "C121_run (every radius and rule number), C121_no_rule and C121_no_local_rule (no rule classifies all rows), C121_demo_fooled (two rows of the demo's length that its rule gets wrong, and the uniform rows)."
  },
  {
   "property": "C122",
   "status": "partial",
   "theorems": [
    "Verif.C122_plot_partial",
    "Verif.C122_twin",
    "Verif.C122_ylim_pair",
    "Verif.C122_legend_list",
    "Verif.C122_one_ylabel",
    "Verif.C122_new_python",
    "Verif.C122_decorations",
    "Verif.C122_errors"
   ],
   "note": "C122_plot_partial (lines, y labels and y limits, for limits and labels given as lists), C122_twin (each of two axes gets its own), C122_decorations (x labels, x limits, legends and the title, for every call that does not raise) and C122_errors; false beyond that: C122_ylim_pair (a pair of limits sets only the lower one), C122_one_ylabel, C122_legend_list, C122_new_python (lists raise from Python 3.10 on)."
  },
  {
   "property": "C123",
   "status": "proved",
   "theorems": [
    "Verif.C123_frames",
    "Verif.C123_once",
    "Verif.C123_limits",
    "Verif.C123_no_trajectory"
   ],
   "note": "C123_frames, C123_once (frames), C123_limits, C123_no_trajectory (limits, exact rationals)."
  },
  {
   "property": "C124",
   "status": "proved",
   "theorems": [
    "Verif.C124_moore",
    "Verif.C124_von_neumann",
    "Verif.C124_hex",
    "Verif.C124_light_cone"
   ],
   "note": "C124_moore, C124_von_neumann, C124_hex (every rule on the cell and the multiset of its neighbours); C124_light_cone."
  },
  {
   "property": "C125",
   "status": "proved",
   "theorems": [
    "Verif.C125_hex",
    "Verif.C125_outline",
    "Verif.C125_square"
   ],
   "note": "C125_hex (sides by Pascal's triangle, cone, cells stay alive), C125_outline (whole outlines and corners), C125_square (rules such as 126)."
  },
  {
   "property": "C126",
   "status": "partial",
   "theorems": [
    "Verif.C126_errors",
    "Verif.C126_state_partial",
    "Verif.C126_all_states",
    "Verif.C126_one_number",
    "Verif.C126_raises",
    "Verif.C126_nothing",
    "Verif.C126_annotations",
    "Verif.C126_grid",
    "Verif.C126_lines",
    "Verif.C126_animate_needs_shape",
    "Verif.C126_multiple",
    "Verif.C126_few_titles",
    "Verif.C126_plot1D",
    "Verif.C126_plot1D_states",
    "Verif.C126_plot1D_nothing",
    "Verif.C126_plot_grid",
    "Verif.C126_plot_grid_all",
    "Verif.C126_figure"
   ],
   "note": "C126_state_partial (shapes of two numbers), C126_all_states (no shape), C126_raises, C126_nothing (errors), C126_annotations, C126_grid, C126_lines, C126_multiple, C126_few_titles, C126_plot1D, C126_plot1D_states, C126_plot1D_nothing; false for a shape of one number: C126_one_number. C126_animate_needs_shape: the default shape of animate_activities always raises for states. C126_plot_grid, C126_plot_grid_all and C126_figure give the pixels of plot_grid and of the figures of plot_grid_multiple called on rows directly; they were added after three wrong programs (exchanged rows and columns, ignored slices) had survived."
  },
  {
   "property": "C127",
   "status": "proved",
   "theorems": [
    "Verif.C127_message",
    "Verif.C127_plot",
    "Verif.C127_animate",
    "Verif.C127_layouts"
   ],
   "note": "C127_plot, C127_animate; C127_layouts: planar and kamada-kawai are only known to animate_network. The drawing itself is NetworkX and not modelled."
  },
  {
   "property": "C128",
   "status": "proved",
   "theorems": [
    "Verif.C128_reversible_rules",
    "Verif.C128_three_cells",
    "Verif.C128_onto",
    "Verif.C128_returns",
    "Verif.C128_evolve_reversible",
    "Verif.C128_evolve_returns",
    "Verif.C128_evolve_irreversible"
   ],
   "note": "C128_reversible_rules (n >= 4), C128_three_cells (n = 3), C128_onto, C128_returns (abstract automaton); C128_evolve_reversible, C128_evolve_returns, C128_evolve_irreversible (results of evolve, via C46). n < 3 is not covered (C46 needs n >= 3)."
  },
  {
   "property": "C129",
   "status": "proved",
   "theorems": [
    "Verif.C129_conserving_rules",
    "Verif.C129_three_cells",
    "Verif.C129_evolve",
    "Verif.C129_evolve_others"
   ],
   "note": "C129_conserving_rules, C129_three_cells (abstract automaton); C129_evolve, C129_evolve_others (results of evolve)."
  },
  {
   "property": "C130",
   "status": "proved",
   "theorems": [
    "Verif.C130_symmetries",
    "Verif.C130_classes",
    "Verif.C130_evolve"
   ],
   "note": "C130_symmetries, C130_classes; C130_evolve (results of evolve)."
  },
  {
   "property": "C131",
   "status": "proved",
   "theorems": [
    "Verif.C131_additive_rules",
    "Verif.C131_superposition",
    "Verif.C131_powers_of_two",
    "Verif.C131_rule90_dies"
   ],
   "note": "C131_additive_rules (abstract automaton); C131_superposition, C131_powers_of_two, C131_rule90_dies (results of evolve)."
  },
  {
   "property": "C132",
   "status": "proved",
   "theorems": [
    "Verif.C132_animation",
    "Verif.C132_repeat_incomplete",
    "Verif.C132_no_repeat",
    "Verif.C132_abs",
    "Verif.C132_polygon",
    "Verif.C132_closed",
    "Verif.C132_star"
   ],
   "note": "C132_animation (any sequence of calls), C132_no_repeat, C132_repeat_incomplete (the axes are cleared by the frame of the last segment); C132_abs, C132_polygon, C132_closed, C132_star (real sine and cosine; the tests use floats)."
  },
  {
   "property": "C133",
   "status": "proved",
   "theorems": [
    "Verif.C133_matrix",
    "Verif.C133_raises",
    "Verif.C133_order",
    "Verif.C133_tanh"
   ],
   "note": "C133_matrix, C133_raises; C133_order (any V that keeps the order), C133_tanh (the library's V on the real numbers; with floats tanh saturates and different activities can become equal)."
  },
  {
   "property": "C134",
   "status": "proved",
   "theorems": [
    "Verif.C134_to_configurations",
    "Verif.C134_no_network"
   ],
   "note": "C134_to_configurations for runs as in C57_run (without compression, network persisted), up to the order of the relations; C134_no_network; C57_run_total says which runs do not fail."
  },
  {
   "property": "C135",
   "status": "proved",
   "theorems": [
    "Verif.C135_recall",
    "Verif.C135_patterns",
    "Verif.C135_demo",
    "Verif.C135_no_guarantee"
   ],
   "note": "C135_recall (general criterion, runs of evolve), C135_demo (the three halves, margins computed by the kernel), C135_patterns (which cells of the six patterns are 1), C135_no_guarantee (shuffles with which nothing ever changes, because of C39). Without memoization, topology rule and perturbation."
  },
  {
   "property": "C136",
   "status": "proved",
   "theorems": [
    "Verif.C136_comes_to_rest",
    "Verif.C136_evolve",
    "Verif.C136_spurious"
   ],
   "note": "C136_comes_to_rest (abstract net, any choice of units), C136_evolve (runs of evolve), C136_spurious (three patterns of 8 units at rest, and a fourth state at rest). Without memoization, topology rule and perturbation."
  },
  {
   "property": "C137",
   "status": "proved",
   "theorems": [
    "Verif.C137_small_world",
    "Verif.C137_ends",
    "Verif.C137_complete",
    "Verif.C137_rejected"
   ],
   "note": "C137_small_world (any luck: a network with these properties, or the given draws do not end a loop), C137_ends (draws that contain every node end it), C137_complete (k = n), C137_rejected (errors). networkx's generator is transcribed, not part of the repository."
  },
  {
   "property": "C138",
   "status": "partial",
   "theorems": [
    "Verif.C138_ring_partial",
    "Verif.C138_odd"
   ],
   "note": "False for odd k (C138_odd): each node then has k - 1 neighbours. C138_ring_partial: for all 2 <= k < n the neighbours are exactly the nodes at most k // 2 steps away, 2 * (k // 2) of them, so k if k is even."
  },
  {
   "property": "C139",
   "status": "proved",
   "theorems": [
    "Verif.C139_max_entropy",
    "Verif.C139_independent",
    "Verif.C139_determined"
   ],
   "note": "C139_max_entropy, C139_independent, C139_determined, for all strings (floats as reals)."
  },
  {
   "property": "C140",
   "status": "proved",
   "theorems": [
    "Verif.C140_run",
    "Verif.C140_repeats",
    "Verif.C140_reversible",
    "Verif.C140_life"
   ],
   "note": "C140_run (evolve returns the run of the rule), C140_repeats (eventual period, with the bound), C140_reversible (from the start, if no row has two predecessors), C140_life. Without topology rule, perturbation and memoization (C17 treats memoization)."
  },
  {
   "property": "C141",
   "status": "proved",
   "theorems": [
    "Verif.C141_run30",
    "Verif.C141_run90",
    "Verif.C141_errors",
    "Verif.C141_bounded",
    "Verif.C141_side",
    "Verif.C141_follows30",
    "Verif.C141_follows90"
   ],
   "note": "C141_run30, C141_run90 (evolve returns the noisy ring), C141_errors, C141_bounded, C141_side, C141_follows30, C141_follows90. The noise of the demo (0.02) is above the bound of the last claim, and is meant to destroy the pattern."
  },
  {
   "property": "C142",
   "status": "proved",
   "theorems": [
    "Verif.C142_injective",
    "Verif.C142_demo"
   ],
   "note": "C142_injective (any rule that does not look at the past), C142_demo (the rule of the demo is one). C37 says how to compute the run back when the rule does not look at the timestep either."
  },
  {
   "property": "C143",
   "status": "proved",
   "theorems": [
    "Verif.C143_grows",
    "Verif.C143_hangs_together",
    "Verif.C143_demo"
   ],
   "note": "C143_grows, C143_hangs_together (any rule whose left symbols occur on the right), C143_demo (every run of the demo, any number of timesteps)."
  },
  {
   "property": "C144",
   "status": "proved",
   "theorems": [
    "Verif.C144_settles",
    "Verif.C144_flow",
    "Verif.C144_sharp",
    "Verif.C144_classifies"
   ],
   "note": "C144_settles (not both kinds), C144_flow (free flow on either side of density one half), C144_sharp (the bound is attained on even rings), C144_classifies (rule 184, then rule 232, as two calls of evolve; also what happens without a majority)."
  },
  {
   "property": "C145",
   "status": "proved",
   "theorems": [
    "Verif.C145_run",
    "Verif.C145_demo3",
    "Verif.C145_demo4",
    "Verif.C145_demo5",
    "Verif.C145_demo7"
   ],
   "note": "C145_run (total rules), C145_demo3 (closed form; the rules and the axiom of demo 6 are the same), C145_demo4, C145_demo5, C145_demo7. Symbols are non-negative ints, as in the demos."
  },
  {
   "property": "C146",
   "status": "proved",
   "theorems": [
    "Verif.C146_agree",
    "Verif.C146_demo_head",
    "Verif.C146_demo_tape"
   ],
   "note": "C146_agree (both raise or both agree), C146_demo_head and C146_demo_tape (the tape and the head of the machine of the demos at every timestep)."
  },
  {
   "property": "C147",
   "status": "proved",
   "theorems": [
    "Verif.C147_run",
    "Verif.C147_tables",
    "Verif.C147_quiet",
    "Verif.C147_mirror",
    "Verif.C147_too_many_states",
    "Verif.C147_walk_loses_mirror"
   ],
   "note": "C147_run, C147_tables (any number of walks with the same k, r and quiescent state), C147_quiet, C147_mirror, C147_too_many_states (default update order, not memoized), C147_walk_loses_mirror (the walk of the demo does not ask for isotropy; see disagreement 59)."
  },
  {
   "property": "C148",
   "status": "proved",
   "theorems": [
    "Verif.C148_run",
    "Verif.C148_mirror",
    "Verif.C148_quiet",
    "Verif.C148_demo"
   ],
   "note": "C148_run, C148_mirror, C148_quiet, C148_demo."
  },
  {
   "property": "C149",
   "status": "proved",
   "theorems": [
    "Verif.C149_mirror",
    "Verif.C149_superposition",
    "Verif.C149_quiet",
    "Verif.C149_demos"
   ],
   "note": "C149_mirror, C149_superposition, C149_quiet (all about calls without memoization, as described by SecondOrderCall), C149_demos. The 1001 steps between the two demos are computed by the kernel on rows written as numbers (bitwise operations proved to be the rule), in 13 pieces."
  },
  {
   "property": "C150",
   "status": "proved",
   "theorems": [
    "Verif.C150_states",
    "Verif.C150_zero_iff",
    "Verif.C150_bounds",
    "Verif.C150_order",
    "Verif.C150_delayed",
    "Verif.C150_reverse",
    "Verif.C150_between",
    "Verif.C150_periodic",
    "Verif.C150_one_bit",
    "Verif.C150_one_bit_shared",
    "Verif.C150_still",
    "Verif.C150_demo"
   ],
   "note": "C150_states, C150_zero_iff, C150_bounds, C150_order (for every way of writing the states), C150_delayed, C150_between, C150_periodic, C150_reverse, C150_one_bit, C150_one_bit_shared, C150_still, C150_demo. Real numbers instead of floats; the runs are EcaCall (no options but memoization). See disagreement 60."
  },
  {
   "property": "C151",
   "status": "proved",
   "theorems": [
    "Verif.C151_ring",
    "Verif.C151_ring_all",
    "Verif.C151_moore",
    "Verif.C151_von_neumann",
    "Verif.C151_torus_all",
    "Verif.C151_hex_radius_two"
   ],
   "note": "C151_ring, C151_ring_all, C151_moore, C151_von_neumann, C151_torus_all, C151_hex_radius_two (see disagreement 61). Paths are those of Within, which follows the edges that Network.edge reports."
  },
  {
   "property": "C152",
   "status": "proved",
   "theorems": [
    "Verif.C152_outside",
    "Verif.C152_edges",
    "Verif.C152_diagonals",
    "Verif.C152_pascal",
    "Verif.C152_demo"
   ],
   "note": "C152_outside, C152_edges, C152_diagonals, C152_pascal, C152_demo. The hypothesis EcaCall is a call of evolve that returned; C46 shows that it returns. Rules with odd numbers, whose background changes, are not part of the claim."
  },
  {
   "property": "C153",
   "status": "proved",
   "theorems": [
    "Verif.C153_comes_back",
    "Verif.C153_runs_away",
    "Verif.C153_demo"
   ],
   "note": "C153_comes_back, C153_runs_away, C153_demo (evolve with the rules of the demo). Rational numbers; the square root is an argument, required to be right up to some factor (C153_comes_back) or exact on squares (C153_runs_away, C153_demo; the model reports a wished speed of 0, for which numpy goes on with nan, as an error, hence the hypothesis on the other boids). Corners, where two margins act at once, are outside the first statement."
  },
  {
   "property": "C154",
   "status": "proved",
   "theorems": [
    "Verif.C154_equal_iff",
    "Verif.C154_equivalence",
    "Verif.C154_queries",
    "Verif.C154_calls",
    "Verif.C154_order_of_edges",
    "Verif.C154_order_of_targets",
    "Verif.C154_undo",
    "Verif.C154_rotation_ignored",
    "Verif.C154_equal_but_different_runs"
   ],
   "note": "C154_equal_iff, C154_equivalence, C154_queries, C154_calls, C154_order_of_edges, C154_order_of_targets, C154_undo, C154_rotation_ignored (all histories), C154_equal_but_different_runs (the negative statement: two concrete pairs of equal networks on which evolve gives different activities). Attributes named like the four reserved keys, and comparison with something that is not a Network, are not modelled."
  },
  {
   "property": "C155",
   "status": "proved",
   "theorems": [
    "Verif.C155_colony"
   ],
   "note": "C155_colony (evolve with the two rules of the model; the structure Colony lists the claims). Rational numbers: with floats a resource could be divided so often that it underflows to 0, and the agent would then be dead. An example beside it shows that a negative rate kills agents, and another evaluates a run of six timesteps."
  },
  {
   "property": "C156",
   "status": "proved",
   "theorems": [
    "Verif.C156_extinct",
    "Verif.C156_converges",
    "Verif.C156_wanders",
    "Verif.C156_four",
    "Verif.C156_demos"
   ],
   "note": "C156_extinct, C156_converges, C156_wanders, C156_four about the iterates of the map; C156_demos about evolve with the rule of the demos and any rates from 0 to 4 (without memoization, see C103). Exact rationals: with floats the populations for 3 < r < 4 are eventually periodic, as there are finitely many floats; the rate 4.0 and the start 0.5 are exact in floats, so the dead last node is real."
  },
  {
   "property": "C157",
   "status": "proved",
   "theorems": [
    "Verif.C157_motion",
    "Verif.C157_symmetric",
    "Verif.C157_rules"
   ],
   "note": "C157_motion: two calls of evolve whose initial conditions are related by a motion; C157_symmetric: initial conditions with a symmetry (for motions that change rows with columns the torus must be square); C157_rules: the Game of Life and Wireworld (Moore), totalistic_ca(2, R) with R < 2^10 (Moore) and R < 2^6 (von Neumann) are such rules. Initial conditions are described by a function of row and column. The hexagonal neighbourhood has other symmetries and is not covered."
  },
  {
   "property": "C158",
   "status": "proved",
   "theorems": [
    "Verif.C158_eden",
    "Verif.C158_evolve",
    "Verif.C158_life",
    "Verif.C158_wireworld"
   ],
   "note": "C158_eden: both directions, about one step of the rule; C158_evolve: from two states with the same successor, a state that no ordinary call of evolve without memoization shows after its first state; C158_life: the Game of Life, with or without memoization; C158_wireworld. The existence proofs do not give the state: they count."
  },
  {
   "property": "C159",
   "status": "proved",
   "theorems": [
    "Verif.C159_cover",
    "Verif.C159_equal",
    "Verif.C159_ring",
    "Verif.C159_torus"
   ],
   "note": "C159_cover (two networks, labels and attributes of possibly different types), C159_equal, C159_ring: ordinary calls of evolve without memoization (for rules that look at the own state the default key may be too coarse, see C17); C159_torus: Moore and von Neumann, with or without memoization, for the order-free rules of C157. The rule must not use the label, the time, the input or the weights."
  },
  {
   "property": "C160",
   "status": "proved",
   "theorems": [
    "Verif.C160_order",
    "Verif.C160_rest",
    "Verif.C160_rules",
    "Verif.C160_elementary",
    "Verif.C160_elementary_rest"
   ],
   "note": "C160_order, C160_rest: ordinary calls of evolve without memoization on any network, integer states 0 to K. C160_rules: the 20 order-preserving elementary rules, an equivalence for every ring of at least three cells. C160_elementary, C160_elementary_rest: calls of evolve with nks_ca_rule, with or without memoization; at rest from timestep n on."
  },
  {
   "property": "C161",
   "status": "proved",
   "theorems": [
    "Verif.C161_steps",
    "Verif.C161_loop",
    "Verif.C161_drawn"
   ],
   "note": "C161_steps: all starting numbers and T >= 1, without memoization (as in the demo). C161_loop. C161_drawn: for every result that shows the sequence (of C161_steps or of C92_reaches_one) from n >= 1: the list, the image, its width. Floats are taken as exact (the halves are floats in Python, exact below 2^53)."
  },
  {
   "property": "C162",
   "status": "partial",
   "theorems": [
    "Verif.C162_plot_partial",
    "Verif.C162_given",
    "Verif.C162_raises",
    "Verif.C162_animation",
    "Verif.C162_ignored",
    "Verif.C162_empty",
    "Verif.C162_false"
   ],
   "note": "False for animate_hex: C162_ignored (vmin and vmax never matter if there is at least one cell), C162_false (witness). C162_animation says what it does: colours are scaled once, to the first state that is drawn. C162_plot_partial, C162_given, C162_raises: the claim for plot_hex_grid with a shape, and its errors. The normalisation of matplotlib is modelled after its documentation; values are exact rational numbers. C162_empty: without cells, animate_hex works exactly if both limits are given."
  },
  {
   "property": "C163",
   "status": "proved",
   "theorems": [
    "Verif.C163_upstream",
    "Verif.C163_forgets",
    "Verif.C163_cycle"
   ],
   "note": "C163_upstream (two networks, two rules, two initial conditions, two numbers of timesteps), C163_forgets, C163_cycle: ordinary calls of evolve without memoization. The rule must not use the time, the input or the weights, and must not raise on lists of neighbours of the lengths that occur."
  },
  {
   "property": "C164",
   "status": "proved",
   "theorems": [
    "Verif.C164_powers",
    "Verif.C164_walks",
    "Verif.C164_counts"
   ],
   "note": "C164_powers (any matrix of integers), C164_walks (entries of the powers of 0/1 matrices count walks), C164_counts (both, for evolve): ordinary calls of evolve without memoization. Exact integers; floating point weights are not modelled. Nodes without any link do not occur in the network of from_adjacency_matrix, hence the hypothesis."
  },
  {
   "property": "C165",
   "status": "proved",
   "theorems": [
    "Verif.C165_image",
    "Verif.C165_shape",
    "Verif.C165_short",
    "Verif.C165_softmax",
    "Verif.C165_class",
    "Verif.C165_none",
    "Verif.C165_demo",
    "Verif.C165_pixels"
   ],
   "note": "C165_image, C165_shape, C165_short (reading and showing), C165_softmax, C165_class, C165_none (over the real numbers), C165_demo (the whole call of evolve of the demo, with C107_demo). Rounding is not modelled; with floats np.exp overflows above 709 and the quotient is NaN, so that the title then names the position of the first NaN. C165_pixels: evolve raises for every number of pixels other than the number of nodes; C165_shape and C165_short are about the image shown at the end."
  },
  {
   "property": "C166",
   "status": "proved",
   "theorems": [
    "Verif.C166_ring",
    "Verif.C166_torus",
    "Verif.C166_rules",
    "Verif.C166_ncr",
    "Verif.C166_init_simple",
    "Verif.C166_init_random",
    "Verif.C166_hex",
    "Verif.C166_one_number",
    "Verif.C166_few_titles",
    "Verif.C166_layout",
    "Verif.C166_endless",
    "Verif.C166_no_network"
   ],
   "note": "Equivalences: C166_ring, C166_torus, C166_rules (activities are digits, colours below k, 2 <= k <= 36), C166_ncr, C166_init_simple, C166_init_random, C166_hex, C166_layout, C166_endless. Sufficient conditions only: C166_one_number (at least one row), C166_few_titles (every automaton can be drawn), C166_no_network. The one-directional halves for C30, C34, C41, C52, C69, C71, C127 were proved before in Props/Errors.lean; new are the converses and ring, hex, one_number, few_titles, no_network. Messages are modelled without formatted values, except that of the layouts; AttributeError is named by text. C166_init_random leaves out k <= 0 with an integer dtype and no randomized sites, where it depends on NumPy (not available here) whether randint raises."
  },
  {
   "property": "C167",
   "status": "proved",
   "theorems": [
    "Verif.C167_decay",
    "Verif.C167_limit",
    "Verif.C167_demo",
    "Verif.C167_network"
   ],
   "note": "C167_decay (drop in [0, 1]), C167_limit (drop < 1), C167_demo, C167_network (if watts_strogatz_graph returns; uses C137_small_world). Exact rationals instead of floats; timesteps_drop is a positive natural number."
  }
 ]
}