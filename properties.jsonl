{"id": "C01", "title": "Degree queries count edges", "statement": "After any sequence of Network mutations (add_node, add_edge, add_edge_bidir, update_edge, remove_edge, remove_node, in any order, including failing ones), in_degree(j) is the number of triples (i, j, _) yielded by `edges`, out_degree(i) the number of triples (i, _, _), and degree(x) their sum (a self-loop counts twice).", "quantifier": "every finite sequence of mutation calls with arbitrary labels and attributes, every node", "why_tests_cant": "the counters are maintained incrementally by four different methods; a drift appears only for particular interleavings of parallel edges, self-loops and removals", "anchors": ["netomaton/state.py:Network.add_edge", "netomaton/state.py:Network.remove_node", "netomaton/state.py:Network.remove_edge", "netomaton/state.py:Network.in_degree", "netomaton/state.py:Network.out_degree", "netomaton/state.py:Network.degree"]}
{"id": "C02", "title": "Network is a directed multigraph with insertion order", "statement": "After any sequence of mutations, `nodes`, `edge(i,j)`, `has_edge(i,j)`, `in_edges(j)` and `edges` are exactly those of an abstract directed multigraph in which add_edge appends one parallel edge (creating missing endpoints at the end of the node order), and nothing else changes.", "quantifier": "every finite sequence of mutation calls, every pair of labels", "why_tests_cant": "the claim is a refinement over all histories", "anchors": ["netomaton/state.py:Network"]}
{"id": "C03", "title": "remove_node removes the node and exactly its incident edges", "statement": "After remove_node(x) on any network built through the API, x is not a node, no edge starts or ends at x, every edge between other nodes is kept with its attributes and order, and the node order of the others is kept; it raises KeyError exactly when x is absent, and then changes nothing.", "quantifier": "every history, every label", "why_tests_cant": "incident edges, parallel edges and self-loops combine without bound", "anchors": ["netomaton/state.py:Network.remove_node"]}
{"id": "C04", "title": "remove_edge removes all parallel edges i->j and nothing else", "statement": "remove_edge(i,j) removes every edge from i to j, leaves every other edge and all nodes, and raises KeyError without changing the network exactly when there is no such edge.", "quantifier": "every history, every pair of labels", "why_tests_cant": "same as C03", "anchors": ["netomaton/state.py:Network.remove_edge"]}
{"id": "C05", "title": "update_edge touches exactly the selected edges", "statement": "update_edge(i,j,**attr) merges attr into every parallel edge i->j, or into those at the given indices, keeps all other edges, degrees and nodes, and raises when there is no such edge; a call that raises should leave the network unchanged.", "quantifier": "every history, labels, index lists and attributes", "why_tests_cant": "index lists are arbitrary, and the failure case depends on the position of the bad index", "anchors": ["netomaton/state.py:Network.update_edge"]}
{"id": "C06", "title": "Handshake", "statement": "After any history the sum of in_degree over all nodes equals the sum of out_degree over all nodes and equals the number of edges.", "quantifier": "every history", "why_tests_cant": "global counting invariant", "anchors": ["netomaton/state.py:Network"]}
{"id": "C07", "title": "No dangling references", "statement": "After any history every endpoint of every edge is a node, so queries about endpoints returned by the API never raise KeyError.", "quantifier": "every history", "why_tests_cant": "needs an invariant over all histories", "anchors": ["netomaton/state.py:Network"]}
{"id": "C08", "title": "to_adjacency_matrix entries are edge-weight sums", "statement": "For any network and any nodelist that enumerates the nodes once each, M[a][b] is the sum of the weights (1 when absent) of the edges nodelist[a]->nodelist[b]; with sum_multiedges=False it is the weight of the last such edge, and 0 if there is none.", "quantifier": "every network, every nodelist order, every weight attribute", "why_tests_cant": "unbounded sizes and orders", "anchors": ["netomaton/state.py:Network.to_adjacency_matrix"]}
{"id": "C09", "title": "Adjacency matrix round trip", "statement": "from_adjacency_matrix(A) has an edge i->j with weight A[i][j] exactly for the non-zero entries and no parallel edges; to_adjacency_matrix over 0..n-1 returns A again.", "quantifier": "every matrix", "why_tests_cant": "all sizes, sparsity patterns; matrices with an all-zero row and column are the corner case", "anchors": ["netomaton/topology/networks.py:from_adjacency_matrix", "netomaton/state.py:Network.to_adjacency_matrix"]}
{"id": "C10", "title": "copy yields an equal, independent network", "statement": "copy() and decompress(compress()) return a network with the same nodes, edges, attributes and order for every msgpack-representable content.", "quantifier": "every network, every attribute value", "why_tests_cant": "attribute values are arbitrarily nested; tuples, big ints and non-string keys are the corner cases", "anchors": ["netomaton/state.py:Network.copy", "netomaton/state.py:Network.compress", "netomaton/state.py:Network.decompress", "netomaton/state.py:_Compressor"]}
{"id": "C11", "title": "A rotation system only mentions nodes of the network", "statement": "Assigning rotation_system succeeds exactly when every key and every listed label is a node of the network, and otherwise raises and leaves the previous rotation system in place.", "quantifier": "every network and every mapping", "why_tests_cant": "arbitrary mappings", "anchors": ["netomaton/state.py:Network.rotation_system"]}
{"id": "C12", "title": "NetworkX round trip", "statement": "from_networkx(to_networkx(N)) has the nodes, node attributes, edges and edge attributes of N; for an undirected graph each edge should be present in both directions.", "quantifier": "every network", "why_tests_cant": "all shapes", "anchors": ["netomaton/state.py:Network.to_networkx", "netomaton/state.py:Network.from_networkx"]}
{"id": "C13", "title": "Trajectory length and termination", "statement": "evolve(timesteps=T) with T>=1 invokes the rule T-1 times and returns exactly T states, the first holding the initial conditions; with an input list of length m it returns m+1 states (if no item is None); with an input function it stops at the first None.", "quantifier": "every network, rule, T and input; the count of invocations for calls without memoization, topology rule and node or edge requests", "why_tests_cant": "number of steps is unbounded; T<=0 is the corner case", "anchors": ["netomaton/evolution.py:evolve", "netomaton/evolution.py:_get_input_function", "netomaton/evolution.py:_TimestepInputFunction", "netomaton/evolution.py:_ListInputFunction"]}
{"id": "C14", "title": "Synchronous semantics of one timestep", "statement": "Without structural changes, the activity of node c at t is the activity rule applied to a context made only of activities at t-1, the neighbour list of c and the timestep: no node sees a value computed in the same timestep, for any number of timesteps.", "quantifier": "every network, rule, initial conditions, timestep; calls without memoization and perturbation", "why_tests_cant": "arbitrary rules and sizes", "anchors": ["netomaton/evolution.py:evolve", "netomaton/evolution.py:do_activity_rule"]}
{"id": "C15", "title": "Result does not depend on node iteration order", "statement": "For a stateless rule, the activities computed in a timestep are, as a mapping, the same for every order in which the nodes are visited.", "quantifier": "every permutation of the nodes; one timestep without memoization, whole runs also with it if the keys tell apart what the rule tells apart", "why_tests_cant": "factorially many orders", "anchors": ["netomaton/evolution.py:do_activity_rule"]}
{"id": "C16", "title": "Update-order equations", "statement": "With a topology rule F and activity rule G, evolve satisfies: ACTIVITIES_FIRST S'=G(A,S), A'=F(A,S'); TOPOLOGY_FIRST A'=F(A,S), S'=G(A',S); SYNCHRONOUS A'=F(A,S), S'=G(A,S), at every timestep.", "quantifier": "every F, G, network, timestep", "why_tests_cant": "the equations quantify over arbitrary rules", "anchors": ["netomaton/evolution.py:evolve", "netomaton/evolution.py:evolve_topology", "netomaton/evolution.py:evolve_activities", "netomaton/evolution.py:UpdateOrder"]}
{"id": "C17", "title": "Memoization is transparent", "statement": "If the rule is pure and its value depends only on the memoization key of its context, evolve returns the same trajectory with memoize=True as with memoize=False, for the ordered, the unordered and any user key.", "quantifier": "every network, key function, compatible rule, timesteps", "why_tests_cant": "the cache is shared across nodes and timesteps", "anchors": ["netomaton/evolution.py:_get_memoized", "netomaton/evolution.py:MemoizationKey", "netomaton/evolution.py:_OrderedMemoizationKey", "netomaton/evolution.py:_UnorderedMemoizationKey"]}
{"id": "C18", "title": "Default memoization keys identify exactly the right neighbourhoods", "statement": "Two contexts get the same unordered key iff their neighbourhood activities are permutations of each other, and the same ordered key iff they are equal lists; so order-insensitive rules may use the default key on a network without rotation system.", "quantifier": "all pairs of neighbourhoods", "why_tests_cant": "infinitely many neighbourhoods", "anchors": ["netomaton/evolution.py:_OrderedMemoizationKey.to_key", "netomaton/evolution.py:_UnorderedMemoizationKey.to_key"]}
{"id": "C19", "title": "past_activities window", "statement": "With k past conditions, at every timestep t the context has k past activity maps; the one at index k-j is the network activity j steps before the previous timestep (from the trajectory, or from past_conditions before time 0).", "quantifier": "every k, t, history", "why_tests_cant": "off-by-one at the boundary between past conditions and trajectory for every t", "anchors": ["netomaton/evolution.py:_get_past_activities", "netomaton/evolution.py:NodeContext.past_activity_of"]}
{"id": "C20", "title": "Persistence and compression flags do not change the dynamics", "statement": "persist_activities, persist_network and compression only affect what State.activities/State.network return, never later timesteps (without past_conditions); states not persisted return None, except the initial one.", "quantifier": "every configuration and run", "why_tests_cant": "cross product of flags and runs", "anchors": ["netomaton/evolution.py:evolve", "netomaton/state.py:State"]}
{"id": "C21", "title": "evolve does not modify the caller's network or earlier states", "statement": "With copy_network=True (the default), a topology rule that mutates the network it is given leaves the caller's network and all earlier states as they were; with compression=True earlier states are safe even with copy_network=False.", "quantifier": "every in-place topology rule and run", "why_tests_cant": "aliasing shows only for particular rules and steps", "anchors": ["netomaton/evolution.py:evolve_topology", "netomaton/evolution.py:evolve"]}
{"id": "C22", "title": "Node additions and removals requested by a rule take effect", "statement": "Under ACTIVITIES_FIRST, after a timestep the network is the previous one minus the removed nodes plus the added nodes with the requested outgoing edges, in that order, the caller's network is untouched, and the activity map has exactly the nodes of the network when nodes remove only themselves and links go to existing nodes.", "quantifier": "every set of requests; calls without memoization, topology rule and perturbation", "why_tests_cant": "arbitrary combinations of requests", "anchors": ["netomaton/evolution.py:evolve_activities", "netomaton/evolution.py:evolve_topology", "netomaton/evolution.py:NodeContext.add_node", "netomaton/evolution.py:NodeContext.remove_node"]}
{"id": "C23", "title": "Perturbation is applied once per node per timestep", "statement": "With a perturbation, the activity of each node at t>=1 is the perturbation of (node, activity computed by the rule, t, input); the initial state is not perturbed; other nodes' rules see only perturbed activities of the previous timestep.", "quantifier": "every perturbation, rule, run; calls without memoization", "why_tests_cant": "arbitrary functions", "anchors": ["netomaton/evolution.py:do_activity_rule", "netomaton/evolution.py:PerturbationContext"]}
{"id": "C24", "title": "Input routing", "statement": "With an input, at timestep t the rule of node c receives item t-1 of the input list, indexed by c when that item is a sequence and unchanged otherwise; without input it receives None.", "quantifier": "every input, node and timestep", "why_tests_cant": "off-by-one for every t", "anchors": ["netomaton/evolution.py:do_activity_rule", "netomaton/evolution.py:_ListInputFunction", "netomaton/evolution.py:_is_indexable"]}
{"id": "C25", "title": "The neighbour list is that of the network in force", "statement": "At every timestep the context's neighbour labels are the rotation system entry, if the network has one, and the in-edge sources of the network in force at that timestep otherwise.", "quantifier": "every history of topology changes", "why_tests_cant": "a cached map can go stale only after particular sequences of structural changes", "anchors": ["netomaton/evolution.py:_get_neighbour_labels", "netomaton/evolution.py:_get_neighbourhood_map", "netomaton/evolution.py:evolve"]}
{"id": "C26", "title": "Size mismatch is rejected", "statement": "evolve with an activity rule raises before running any rule iff the number of initial conditions differs from the number of nodes.", "quantifier": "every network and initial conditions", "why_tests_cant": "all sizes", "anchors": ["netomaton/evolution.py:evolve"]}
{"id": "C27", "title": "Prefix and restart laws", "statement": "For a stateless configuration, the first T states of evolve(timesteps=T+U) are evolve(timesteps=T); and, for a rule that ignores the timestep, evolving T, then U more from the last state, equals evolving T+U.", "quantifier": "every rule, T, U; for the restart: calls without memoization and past conditions", "why_tests_cant": "unbounded", "anchors": ["netomaton/evolution.py:evolve"]}
{"id": "C28", "title": "binary_ca_rule reads the rule number's bits", "statement": "For a neighbourhood of m binary cells and 0<=rule<2^(2^m), nks_ca_rule(rule) returns bit number v of rule, where v is the neighbourhood read as a binary number, most significant first; the default scheme returns bit 2^m-1-v; larger rule numbers raise.", "quantifier": "every m, rule and neighbourhood", "why_tests_cant": "2^(2^m) rules", "anchors": ["netomaton/rules/activity_rule.py:binary_ca_rule", "netomaton/rules/activity_rule.py:nks_ca_rule", "netomaton/rules/activity_rule.py:bits_to_int", "netomaton/rules/activity_rule.py:int_to_bits"]}
{"id": "C29", "title": "bits_to_int and int_to_bits are inverse", "statement": "bits_to_int(int_to_bits(x,d)) = x whenever x < 2^d, int_to_bits(bits_to_int(b),len(b)) = b for binary b, and int_to_bits raises exactly when x needs more than d digits.", "quantifier": "every integer and width", "why_tests_cant": "infinite domain", "anchors": ["netomaton/rules/activity_rule.py:bits_to_int", "netomaton/rules/activity_rule.py:int_to_bits"]}
{"id": "C30", "title": "totalistic_ca returns the base-k digit selected by the sum", "statement": "For 2<=k<=36 and an n-cell neighbourhood with values in 0..k-1, the result is digit number s of rule in base k, where s is the neighbourhood sum, so it lies in 0..k-1 and depends only on the sum; it raises iff rule >= k^(n(k-1)+1).", "quantifier": "every k, n, rule, neighbourhood", "why_tests_cant": "unbounded", "anchors": ["netomaton/rules/activity_rule.py:totalistic_ca"]}
{"id": "C31", "title": "majority_rule returns a most frequent state", "statement": "majority_rule returns the unique most frequent neighbourhood state if there is one, and otherwise one of the most frequent states.", "quantifier": "every neighbourhood and every random choice", "why_tests_cant": "random tie breaking", "anchors": ["netomaton/rules/activity_rule.py:majority_rule"]}
{"id": "C32", "title": "game_of_life_rule is B3/S23", "statement": "When the cell itself is in its neighbourhood, game_of_life_rule gives 1 iff the cell is dead with exactly 3 live neighbours, or alive with 2 or 3.", "quantifier": "every neighbourhood", "why_tests_cant": "all neighbourhoods of any size", "anchors": ["netomaton/rules/activity_rule.py:game_of_life_rule"]}
{"id": "C33", "title": "wireworld_rule", "statement": "Empty stays empty, head becomes tail, tail becomes conductor, a conductor becomes a head iff 1 or 2 neighbourhood cells are heads; states stay in {0,1,2,3}.", "quantifier": "every neighbourhood", "why_tests_cant": "all neighbourhoods", "anchors": ["netomaton/rules/activity_rule.py:wireworld_rule"]}
{"id": "C34", "title": "table_rule looks up the neighbourhood", "statement": "table_rule(table) returns the entry for the neighbourhood and raises iff it is missing; different neighbourhoods never share an entry.", "quantifier": "every table and neighbourhood of k-color states", "why_tests_cant": "string concatenation can collide", "anchors": ["netomaton/rule_tables.py:table_rule"]}
{"id": "C35", "title": "random_rule_table invariants", "statement": "For every outcome of the random numbers the table has exactly the k^(2r+1) neighbourhoods as keys, values in 0..k-1, uniform neighbourhoods map to their own state under strong_quiescence, table[s]=table[reverse s] under isotropic, and the returned lambda is the fraction of entries that are not the quiescent state.", "quantifier": "every k, r, flags and every random sequence", "why_tests_cant": "randomness", "anchors": ["netomaton/rule_tables.py:random_rule_table"]}
{"id": "C36", "title": "table_walk_through invariants", "statement": "For every outcome of the random numbers it terminates, keeps the key set, keeps uniform neighbourhoods under strong_quiescence and isotropy under isotropic, moves lambda monotonically towards the target, and stops when the target is reached or crossed or no entry can be changed; the returned lambda is the table's actual lambda.", "quantifier": "every table, target, flags, random sequence", "why_tests_cant": "randomness and unbounded tables", "anchors": ["netomaton/rule_tables.py:table_walk_through"]}
{"id": "C37", "title": "ReversibleRule evolutions can be run backwards", "statement": "Evolving a binary automaton with ReversibleRule(f) for T steps, and then evolving again from the last two states in swapped order, yields the original states in reverse, for every f.", "quantifier": "every f, network, initial and past conditions, T", "why_tests_cant": "every rule and run length", "anchors": ["netomaton/reversible_rule.py:ReversibleRule.__call__", "netomaton/evolution.py:evolve"]}
{"id": "C38", "title": "AsynchronousRule updates exactly one node per timestep, cyclically", "statement": "Without memoization, with an update_order without repetitions made of nodes of the network, at timestep t exactly the node update_order[(t-1) mod len] is given the rule's value and every other node keeps its activity.", "quantifier": "every rule, order, network iteration order, timestep", "why_tests_cant": "the rule keeps a hidden counter over all calls", "anchors": ["netomaton/asynchronous_rule.py:AsynchronousRule"]}
{"id": "C39", "title": "randomize_each_cycle keeps cycles fair", "statement": "With randomize_each_cycle=True every complete cycle of len(update_order) timesteps updates every node exactly once, and the order is reshuffled only between cycles.", "quantifier": "every shuffle outcome", "why_tests_cant": "randomness", "anchors": ["netomaton/asynchronous_rule.py:AsynchronousRule._check_for_end_of_cycle"]}
{"id": "C40", "title": "1D adjacency", "statement": "adjacency.cellular_automaton(n,r) for n>=3 and 0<=r<=n has A[i][j]=1 iff the circular distance of i and j is at most r and 0 otherwise; it raises for n<3 and for any other boundary.", "quantifier": "every n, r, i, j", "why_tests_cant": "all sizes and the wrap-around", "anchors": ["netomaton/topology/adjacency.py:cellular_automaton"]}
{"id": "C41", "title": "2D adjacency", "statement": "adjacency.cellular_automaton2d(rows,cols,r,nb) has A[(a,b)][(c,d)]=1 iff some offset (dx,dy) with max(|dx|,|dy|)<=r (Moore) or |dx|+|dy|<=r (von Neumann) takes (a,b) to (c,d) on the torus, and 0 otherwise; it raises iff rows*cols<9 or the type is unknown.", "quantifier": "every size, radius, cell pair", "why_tests_cant": "all sizes", "anchors": ["netomaton/topology/adjacency.py:cellular_automaton2d", "netomaton/topology/adjacency.py:_get_neighbourhood_points2d"]}
{"id": "C42", "title": "Neighbour relations are symmetric", "statement": "The 1D, Moore, von Neumann and Hex adjacency matrices are symmetric, so the in-neighbours of a cell are its neighbours.", "quantifier": "every size and radius", "why_tests_cant": "wrap-around parity", "anchors": ["netomaton/topology/adjacency.py:cellular_automaton", "netomaton/topology/adjacency.py:cellular_automaton2d"]}
{"id": "C43", "title": "1D neighbourhoods are ordered left to right", "statement": "In topology.cellular_automaton(n,r) with 2r+1<=n, the rotation system lists for node w the cells w-r,...,w,...,w+r (mod n) in this order.", "quantifier": "every n, r, w", "why_tests_cant": "sorting plus rotation at the wrap-around", "anchors": ["netomaton/topology/networks.py:cellular_automaton", "netomaton/topology/networks.py:_shift_to_center"]}
{"id": "C44", "title": "The centre of every ordered neighbourhood is the node", "statement": "In 1D and 2D ordered automata the rotation system entry of a node contains exactly its in-neighbours, once each, with the node itself at position len//2; for 2D all cells should list their neighbours in the same geometric order.", "quantifier": "every size, radius, type, node", "why_tests_cant": "wrap-around", "anchors": ["netomaton/topology/networks.py:_shift_to_center", "netomaton/topology/networks.py:cellular_automaton2d"]}
{"id": "C45", "title": "bipartite, complete, disconnected", "statement": "bipartite(U,V) of disjoint label lists has exactly one edge in each direction between every u and v and none inside a side; complete(n) connects every two different nodes in both directions, with n nodes; disconnected(n) has n nodes and no edge.", "quantifier": "every n and label lists", "why_tests_cant": "all sizes", "anchors": ["netomaton/topology/networks.py:bipartite", "netomaton/topology/networks.py:complete", "netomaton/topology/networks.py:disconnected"]}
{"id": "C46", "title": "Elementary CA end to end", "statement": "evolve on cellular_automaton(n), n>=3, with nks_ca_rule(R), 0<=R<256, from any binary initial conditions, with or without memoize, gives at every timestep the rule-R elementary CA on a ring.", "quantifier": "every n, R, initial state, timesteps", "why_tests_cant": "combines topology, rotation system, engine, memo table and rule", "anchors": ["netomaton/topology/networks.py:cellular_automaton", "netomaton/evolution.py:evolve", "netomaton/rules/activity_rule.py:nks_ca_rule"]}
{"id": "C47", "title": "Game of Life end to end", "statement": "evolve on cellular_automaton2d(rows,cols) with rows,cols>=3, Moore r=1 and game_of_life_rule gives Conway's Life on the torus, at every timestep.", "quantifier": "every size, initial state, timesteps", "why_tests_cant": "wrap-around and neighbourhood multiplicity", "anchors": ["netomaton/topology/networks.py:cellular_automaton2d", "netomaton/evolution.py:evolve", "netomaton/rules/activity_rule.py:game_of_life_rule"]}
{"id": "C48", "title": "Sandpile conserves grains", "statement": "With open (periodic) boundary and rows,cols>=3, the total of the activities is the same at every timestep; with a closed boundary it never increases once the boundary is empty; activities never become negative; interior cells follow the toppling rule.", "quantifier": "every size, initial state, timesteps", "why_tests_cant": "conservation is a global invariant", "anchors": ["netomaton/sandpile.py:Sandpile.activity_rule"]}
{"id": "C49", "title": "CTRBL neighbourhood map is the torus", "statement": "CTRBLRule's neighbourhood map gives for cell (a,b) the centre, (a-1,b), (a,b+1), (a+1,b), (a,b-1) modulo the dimensions, the network's rotation system lists them in the order C,T,R,B,L, and they are exactly the in-neighbours of the network.", "quantifier": "every dimension, every cell", "why_tests_cant": "wrap-around arithmetic on flat labels", "anchors": ["netomaton/ctrbl_rule.py:CTRBLRule._init_neighbourhood_map", "netomaton/ctrbl_rule.py:CTRBLRule.__init__"]}
{"id": "C50", "title": "CTRBL rotations", "statement": "With add_rotations the rule table contains every rotation of every given rule and nothing else, gives every rotation of a rule that rule's image when the given table has no conflicting rotations, and the automaton raises exactly for neighbourhoods outside it; so the rule is rotation invariant.", "quantifier": "every rule table and neighbourhood", "why_tests_cant": "later rules may overwrite rotations of earlier ones", "anchors": ["netomaton/ctrbl_rule.py:CTRBLRule._init_rule_table", "netomaton/ctrbl_rule.py:CTRBLRule.activity_rule"]}
{"id": "C51", "title": "Langton's loop table is rotation invariant and keeps its states", "statement": "The LangtonsLoop table assigns all four rotations of a neighbourhood the same image, keeps states in 0..7, and keeps an all-0 neighbourhood at 0.", "quantifier": "all neighbourhoods over 0..7", "why_tests_cant": "8^5 neighbourhoods", "anchors": ["netomaton/langtons_loop.py:LangtonsLoop.__init__"]}
{"id": "C52", "title": "HeadCentricTuringMachine simulates the Turing machine", "statement": "Evolving HeadCentricTuringMachine with its input function yields at every timestep the (state, position) of the machine on a circular tape, tape_history is the sequence of tapes, and it stops exactly after the step that enters the terminating state or when the number of timesteps is reached.", "quantifier": "every rule table, tape, number of steps", "why_tests_cant": "unbounded runs", "anchors": ["netomaton/turing_machine.py:HeadCentricTuringMachine"]}
{"id": "C53", "title": "TapeCentricTuringMachine simulates the Turing machine", "statement": "Evolving TapeCentricTuringMachine on n>=3 cells yields at every timestep the tape contents, and its head history the (state, position), of the same machine on a circular tape of n cells.", "quantifier": "every rule table, tape, number of steps", "why_tests_cant": "unbounded runs, hidden head history", "anchors": ["netomaton/turing_machine.py:TapeCentricTuringMachine"]}
{"id": "C54", "title": "SubstitutionSystem performs string rewriting", "statement": "Evolving a SubstitutionSystem with keys of length m yields, read in label order, at every timestep the string obtained from the previous one by replacing every window of m consecutive symbols by its rule, left to right.", "quantifier": "every axiom, rule map, number of steps", "why_tests_cant": "labels, links and windows are rebuilt at every timestep", "anchors": ["netomaton/substitution_system.py:SubstitutionSystem"]}
{"id": "C55", "title": "Wolfram model configuration round trip", "statement": "network_to_config of the network built from a configuration of non-empty relations returns the same relations in the same order.", "quantifier": "every configuration", "why_tests_cant": "hyperedges of any arity, and the order of 10 and more relations", "anchors": ["netomaton/wolfram_physics_model.py:WolframPhysicsModel.network_to_config", "netomaton/wolfram_physics_model.py:WolframPhysicsModel._init_network_and_conditions"]}
{"id": "C56", "title": "Pattern matching binds consistently", "statement": "_matches succeeds iff the relation has the pattern's length and agrees with an extension of the bindings; on failure the bindings are unchanged, on success they are extended exactly by the pattern's symbols.", "quantifier": "every pattern, relation and binding", "why_tests_cant": "all repetition patterns of symbols", "anchors": ["netomaton/wolfram_physics_model.py:WolframPhysicsModel._matches"]}
{"id": "C57", "title": "A rewriting step replaces matched relations only", "statement": "topology_rule terminates, and its new configuration is a permutation of the old one minus the matched relations plus, for every complete match, the right-hand side instantiated with its bindings; matched groups are disjoint instances of the left-hand side.", "quantifier": "every rule and configuration", "why_tests_cant": "unbounded number of matches, failed partial matches", "anchors": ["netomaton/wolfram_physics_model.py:WolframPhysicsModel.topology_rule"]}
{"id": "C58", "title": "New nodes are fresh", "statement": "Symbols that occur only on the right-hand side are bound to new nodes, different from every node of the current configuration and from each other across matches and symbols.", "quantifier": "every rule and configuration", "why_tests_cant": "counter is recomputed every step", "anchors": ["netomaton/wolfram_physics_model.py:WolframPhysicsModel.topology_rule"]}
{"id": "C59", "title": "Hopfield training gives the Hebbian matrix", "statement": "train(P) yields W[i][j] = sum over patterns of p[i]p[j] for i != j and 0 on the diagonal; W is symmetric.", "quantifier": "every pattern list", "why_tests_cant": "all sizes", "anchors": ["netomaton/hopfield_net.py:HopfieldNet.train"]}
{"id": "C60", "title": "Hopfield energy never increases", "statement": "In any run of a trained Hopfield net from bipolar activities, for every shuffle outcome, the energy -1/2 sum W_ij s_i s_j never increases from one timestep to the next.", "quantifier": "every training set, initial pattern, shuffle sequence, timestep; calls without memoization, topology rule and perturbation", "why_tests_cant": "Lyapunov argument", "anchors": ["netomaton/hopfield_net.py:HopfieldNet._rule", "netomaton/asynchronous_rule.py:AsynchronousRule"]}
{"id": "C61", "title": "A single trained pattern is a fixed point", "statement": "After training on one bipolar pattern of length n>=2, that pattern is unchanged by every run.", "quantifier": "every pattern, run; calls without topology rule and perturbation, with or without memoization (default key)", "why_tests_cant": "all sizes", "anchors": ["netomaton/hopfield_net.py:HopfieldNet"]}
{"id": "C62", "title": "TSP node coordinates", "statement": "node label and (point, position) are in bijection: label = point*n+position for all n^2 labels.", "quantifier": "every n", "why_tests_cant": "all sizes", "anchors": ["netomaton/hopfield_tank_tsp_net.py:HopfieldTankTSPNet._get_node_label_map", "netomaton/hopfield_tank_tsp_net.py:HopfieldTankTSPNet._get_coordinate_map"]}
{"id": "C63", "title": "get_tour_graph yields a closed tour of all points or raises", "statement": "It raises iff two rows have their maximum in the same column; otherwise its edges form one cycle through all points in the order of the permutation matrix, and the length is the sum of the consecutive distances.", "quantifier": "every matrix", "why_tests_cant": "all permutations", "anchors": ["netomaton/hopfield_tank_tsp_net.py:HopfieldTankTSPNet.get_tour_graph"]}
{"id": "C64", "title": "TSP distances and update equation", "statement": "The distance map is symmetric with zero diagonal for n>=2, and activity_rule computes u + dt*(-u - A*rowSum - B*colSum - C*(total-n) - D*sum_y d(x,y)(V(y,i+1)+V(y,i-1))).", "quantifier": "every point list, activities; for runs: calls without memoization", "why_tests_cant": "all sizes", "anchors": ["netomaton/hopfield_tank_tsp_net.py:HopfieldTankTSPNet.activity_rule", "netomaton/hopfield_tank_tsp_net.py:HopfieldTankTSPNet._get_distances_map"]}
{"id": "C65", "title": "Turtle bracket discipline", "statement": "Any balanced sequence of turtle operations between push and pop restores position and orientation; pop raises exactly on an empty stack; every forward appends one segment starting at the current position, so unbroken runs of moves are connected.", "quantifier": "every program", "why_tests_cant": "unbounded nesting", "anchors": ["netomaton/turtle.py:Turtle"]}
{"id": "C66", "title": "Shannon entropy bounds", "statement": "0 <= shannon_entropy(s) <= log2(number of different symbols), with 0 iff at most one symbol occurs; it is invariant under permuting the string and renaming symbols.", "quantifier": "every string", "why_tests_cant": "real-valued inequality over all strings", "anchors": ["netomaton/analysis.py:shannon_entropy"]}
{"id": "C67", "title": "Mutual information laws", "statement": "For strings of equal length mutual_information is symmetric, non-negative, equals the entropy for identical strings, and the joint entropy is at least each marginal and at most their sum.", "quantifier": "every pair of strings", "why_tests_cant": "information inequalities", "anchors": ["netomaton/analysis.py:mutual_information", "netomaton/analysis.py:joint_shannon_entropy"]}
{"id": "C68", "title": "average_mutual_information accepts exactly temporal distances below the number of time steps", "statement": "It raises iff temporal_distance <= 0 or >= number of timesteps.", "quantifier": "every trajectory and distance", "why_tests_cant": "all shapes", "anchors": ["netomaton/analysis.py:average_mutual_information"]}
{"id": "C69", "title": "ncr is the binomial coefficient", "statement": "ncr(n,r) equals n choose r for all n, r >= 0 and raises for negative arguments.", "quantifier": "all n, r", "why_tests_cant": "infinite domain", "anchors": ["netomaton/utils.py:ncr"]}
{"id": "C70", "title": "binarize_for_plotting", "statement": "All rows have the length of the longest binary representation and each row read in binary is the given number.", "quantifier": "every list of non-negative numbers", "why_tests_cant": "infinite domain", "anchors": ["netomaton/utils.py:binarize_for_plotting"]}
{"id": "C71", "title": "init_simple, init_simple2d, init_random", "statement": "init_simple(size,val) has length size with val at size//2 and 0 elsewhere; init_simple2d(rows,cols) has val at row rows//2, column cols//2; init_random has length size, exactly n_randomized centred random sites in range and the empty value elsewhere, and raises iff n_randomized is outside 0..size.", "quantifier": "every size and random outcome", "why_tests_cant": "all sizes", "anchors": ["netomaton/evolution.py:init_simple", "netomaton/evolution.py:init_simple2d", "netomaton/evolution.py:init_random"]}
{"id": "C72", "title": "get_activities_over_time_as_list", "statement": "Row t lists the activities of state t in increasing label order.", "quantifier": "every trajectory", "why_tests_cant": "states without activities are the corner case", "anchors": ["netomaton/utils.py:get_activities_over_time_as_list"]}
{"id": "C73", "title": "Fungal growth: link exclusivity and valid probabilities", "statement": "At every timestep each lattice link carries at most one directed edge, so the growth probability 1/(4-degree) never divides by zero and lies in (0,1], and the outgoing weights of every node sum to 1.", "quantifier": "every random outcome, link iteration order, run", "why_tests_cant": "randomness and an invariant over all timesteps", "anchors": ["netomaton/fungal_growth_model.py:FungalGrowthModel.topology_rule"]}
{"id": "C74", "title": "Fungal growth: resource balance", "statement": "The total resource after a timestep is the resource sent along edges plus that kept by nodes without incoming edges plus R_E for every live node on the resource layer.", "quantifier": "every network, activities", "why_tests_cant": "global balance", "anchors": ["netomaton/fungal_growth_model.py:FungalGrowthModel.activity_rule"]}
{"id": "C75", "title": "L-system rendering", "statement": "Rendering a string executes the bound instructions of its symbols in order; for a string with balanced brackets the turtle's stack ends as it started.", "quantifier": "every string and binding", "why_tests_cant": "unbounded strings", "anchors": ["netomaton/utils.py:_render_L_system"]}
{"id": "C76", "title": "Locality (light cone)", "statement": "With a fixed topology, the activity of a node after T steps depends only on initial activities of nodes from which it is reachable by a path of at most T neighbour links (or itself).", "quantifier": "every network, rule, T", "why_tests_cant": "all initial conditions outside the cone", "anchors": ["netomaton/evolution.py:evolve", "netomaton/evolution.py:do_activity_rule"]}
{"id": "C77", "title": "Translation symmetry of cellular automata", "statement": "Shifting the initial conditions of a 1D ring automaton shifts its whole evolution.", "quantifier": "every n, r, rule, shift, T", "why_tests_cant": "all shifts and runs", "anchors": ["netomaton/topology/networks.py:cellular_automaton", "netomaton/evolution.py:evolve"]}
{"id": "C78", "title": "lattice is the n-dimensional grid", "statement": "lattice(dim, periodic) joins two different nodes by exactly one edge each way iff their coordinates (first coordinate fastest) differ by one step in exactly one dimension, around the dimension if periodic; nothing else is joined; the nodes are those with a link, numbered from first_label; a periodic dimension of size 0 raises.", "quantifier": "every list of dimensions, periodic or not, first label, order in which the grid graph reports its edges", "why_tests_cant": "any number of dimensions; sizes 1 and 2 are corner cases", "anchors": ["netomaton/topology/networks.py:lattice"]}
{"id": "C79", "title": "lattice with self_loops has a loop at every node", "statement": "With self_loops=True each node of the lattice has a connection to itself (docstring).", "quantifier": "every list of dimensions", "why_tests_cant": "the flag only matters in corner cases", "anchors": ["netomaton/topology/networks.py:lattice"]}
{"id": "C80", "title": "A State returns what was last assigned", "statement": "State.activities and State.network return the value last assigned to them, whatever it was and with or without compression.", "quantifier": "every sequence of assignments", "why_tests_cant": "falsy values are the corner case", "anchors": ["netomaton/state.py:State"]}
{"id": "C81", "title": "init_loops draws the loops", "statement": "init_loops(n, row, col) returns the cells row by row, where each cell holds what the last of the n loops that covers it puts there and 0 otherwise; a loop's first cell of its first row is at the given position; indices below 0 count from the end; it raises IndexError iff a loop does not fit or a position is missing.", "quantifier": "every grid size, number of loops and lists of positions", "why_tests_cant": "overlaps, negative positions and partial fits", "anchors": ["netomaton/langtons_loop.py:LangtonsLoop.init_loops"]}
{"id": "C82", "title": "Langton's loop replicates", "statement": "From one loop on a torus of at least 17 rows and 28 columns, evolve with LangtonsLoop runs 151 steps without meeting a missing neighbourhood, and then shows an exact copy of the initial loop eleven columns to the right beside the first loop, which has put out a new arm upwards; every other cell is empty.", "quantifier": "every torus size from 17 x 28 on, every position accepted by init_loops, with or without memoization", "why_tests_cant": "all torus sizes and positions; one wrong entry of the table destroys the loop", "anchors": ["netomaton/langtons_loop.py:LangtonsLoop", "netomaton/ctrbl_rule.py:CTRBLRule.activity_rule", "netomaton/evolution.py:evolve"]}
{"id": "C83", "title": "Head annotations of the Turing machines", "statement": "For a computation of T configurations, head_activities (tape-centric, after one evolve with a new machine object) and activities_for_plotting (head-centric) return T rows of the tape's length in which row t holds the head's state at the head's position and None elsewhere; the head-centric one also returns the T tapes.", "quantifier": "every table, tape, start, T >= 1 for which the computation is defined; tape-centric: at least 3 cells and no memoization", "why_tests_cant": "all machines and run lengths; off-by-one between histories and states", "anchors": ["netomaton/turing_machine.py:TapeCentricTuringMachine.head_activities", "netomaton/turing_machine.py:HeadCentricTuringMachine.activities_for_plotting"]}
{"id": "C84", "title": "plot_hex_grid draws the Hex neighbourhood", "statement": "plot_hex_grid draws one hexagon per cell, in row-major order with the cell's value; different hexagons do not overlap; two hexagons share a side iff the cells are neighbours of radius 1 in the Hex neighbourhood without going around the border.", "quantifier": "every grid size and state", "why_tests_cant": "geometry over all sizes; parity of the number of rows", "anchors": ["netomaton/hexplot.py:plot_hex_grid", "netomaton/hexplot.py:_evenr_offset_to_pixel", "netomaton/hexplot.py:_oddr_offset_to_pixel"]}
{"id": "C85", "title": "plot_degree_distribution counts the nodes by degree", "statement": "The bars stand at 1, ..., the greatest degree, and the bar at k is as high as there are nodes with k edges (in, out, or both according to the flags); the heights add up to the number of nodes; a network without nodes raises ValueError.", "quantifier": "every network built by the operations of Network, every combination of the flags", "why_tests_cant": "all networks; nodes without edges are the corner case", "anchors": ["netomaton/utils.py:plot_degree_distribution"]}
{"id": "C86", "title": "poincare_plot and bifurcation_plot use the last timesteps", "statement": "The points of poincare_plot are the pairs of consecutive values among the last `timesteps` ones, none for timesteps <= 1, and it raises IndexError iff timesteps >= 2 exceeds the number of values; bifurcation_plot draws above each x exactly the different values among the last `timesteps` ones, in increasing order.", "quantifier": "every list of values, number of timesteps >= 0, total order of the values", "why_tests_cant": "all lengths; slices from the end and 0 are corner cases", "anchors": ["netomaton/utils.py:poincare_plot", "netomaton/utils.py:bifurcation_plot"]}
{"id": "C87", "title": "_reshape_for_animation", "statement": "With a shape of one dimension frame i holds the states 0..i in their rows and zeros below, T rows in each of T frames; with two dimensions frame t is state t row by row; a shape that does not fit, or of another length, raises.", "quantifier": "every list of states of equal length and shape of natural numbers", "why_tests_cant": "all sizes", "anchors": ["netomaton/utils.py:_reshape_for_animation"]}
{"id": "C88", "title": "lattice_pos places the nodes of the lattice", "statement": "lattice_pos(n_x, n_y) gives node k the position (k // n_y, k % n_y), and two different nodes of the non-periodic lattice((n_x, n_y)) are linked iff their positions are one step apart.", "quantifier": "every n_x and n_y, with or without self loops, every order of edges", "why_tests_cant": "the order of the dimensions only matters for unequal sizes", "anchors": ["netomaton/vis/vis_utils.py:lattice_pos", "netomaton/topology/networks.py:lattice"]}
{"id": "C89", "title": "configuration_to_nx and the edges of get_html", "statement": "The nodes of configuration_to_nx are the labels of the relations by first occurrence, with as many edges from i to j as j directly follows i in a relation; get_html writes one entry per edge in order, and the m-th edge from a node to itself gets size 15 + 5 m.", "quantifier": "every configuration and list of edges", "why_tests_cant": "parallel edges and repeated loops", "anchors": ["netomaton/vis/vis_utils.py:configuration_to_nx", "netomaton/vis/vis_utils.py:get_html"]}
{"id": "C90", "title": "The pushdown automaton of the demo accepts exactly a^n b^n", "statement": "For every word v, evolve with pda_rule on the input v followed by the end marker, from state q0 and stack ['Z'], returns exactly if v = a^n b^n with n >= 1, ending in the accepting state; otherwise it raises Exception('input rejected').", "quantifier": "every string of events", "why_tests_cant": "all strings", "anchors": ["demos/pushdown_automata/pushdown_automata_demo.py:pda_rule", "netomaton/evolution.py:evolve"]}
{"id": "C91", "title": "The turnstile of the finite state machine demo", "statement": "For every string of events the run has len(events)+1 states; it starts locked and after each event is locked if the event was a push and unlocked otherwise.", "quantifier": "every string of events", "why_tests_cant": "all strings", "anchors": ["demos/finite_state_machine/finite_state_machine_demo.py:fsm_rule", "netomaton/evolution.py:evolve"]}
{"id": "C92", "title": "The Collatz demo computes the sequence up to the first 1", "statement": "If the Collatz sequence of n reaches 1, evolve returns exactly its members up to the first 1; if it never does, evolve does not return.", "quantifier": "every integer n (exact arithmetic)", "why_tests_cant": "all start values; termination for all n >= 1 is an open problem, so it can only be stated relative to the sequence", "anchors": ["demos/collatz_conjecture/collatz_conjecture_demo.py:activity_rule", "netomaton/evolution.py:evolve"]}
{"id": "C93", "title": "Fredkin's automata replicate every pattern", "statement": "On cellular_automaton2d(rows, cols, r=1) with the Moore or von Neumann neighbourhood and the rule 'sum of the neighbours modulo p', p prime, the state at time p^k is the sum modulo p of the initial pattern displaced by p^k cells in each direction of the neighbourhood; if the pattern fits in a box of p^k by p^k cells and the torus has at least 3 p^k rows and columns, these are separate exact copies.", "quantifier": "every rows, cols >= 3, prime p, k and initial pattern, memoized or not", "why_tests_cant": "all sizes, primes, patterns and times", "anchors": ["demos/fredkin_self_replicating_ca/fredkin_self_replicating_ca_moore_demo.py:activity_rule", "demos/fredkin_self_replicating_ca/fredkin_self_replicating_ca_vonneumann_demo.py:activity_rule", "demos/fredkin_self_replicating_ca/fredkin_self_replicating_ca_multicolor_demo.py:activity_rule", "netomaton/topology/networks.py:cellular_automaton2d", "netomaton/evolution.py:evolve"]}
{"id": "C94", "title": "Random attachment keeps a simple undirected graph and realises exactly the drawn links", "statement": "Evolving disconnected(n), n >= 2, with the topology rule of the random attachment model never raises; state t has the nodes 0..n-1 and exactly one edge in each direction for each of the links drawn so far; the links are between different nodes, never repeated, never lost, at most t and at most n(n-1)/2. With fewer than two nodes the run raises ValueError.", "quantifier": "every n, every number of timesteps, every outcome of the random draws", "why_tests_cant": "all draws and all lengths; random tests see a few", "anchors": ["demos/random_attachment_model/random_attachment_model_demo.py:topology_rule", "netomaton/evolution.py:evolve"]}
{"id": "C95", "title": "Randomly growing networks have the intended size and shape", "statement": "First model: state t has n+t nodes, the initial edges, and one edge in each direction for t links, one from each added node to an older node; started from one node the links form a tree. Second model: state t has n+t nodes and one edge in each direction per link, at most t links, exactly t if delta is 1, no loops.", "quantifier": "every initial size n >= 1 (and, for the first model, every set of initial edges), every number of timesteps, every outcome of the draws and coins", "why_tests_cant": "all draws and all lengths", "anchors": ["demos/randomly_growing_network/randomly_growing_network_demo1.py:topology_rule", "demos/randomly_growing_network/randomly_growing_network_demo2.py:topology_rule", "netomaton/evolution.py:evolve"]}
{"id": "C96", "title": "The restricted network automaton follows its birth and survival law", "statement": "Each network follows from the one before: between two different nodes of the underlying network an edge that does not exist is born exactly if the underlying network has it and the in-degrees (of the old network) of its ends sum to 2; existing edges survive exactly if they sum to 3. Undirected networks stay undirected (for an undirected underlying network), simple ones simple, networks within the underlying network stay within it, and the empty one empty.", "quantifier": "every underlying network, every initial network that has its nodes, every number of timesteps", "why_tests_cant": "the law for all networks, independent of the order in which the pairs are visited and of parallel edges", "anchors": ["demos/restricted_network_automata/restricted_network_automata_demo.py:topology_rule", "netomaton/evolution.py:evolve"]}
{"id": "C97", "title": "The evolving network keeps three neighbours at every node", "statement": "Starting from a simple undirected network without attributes in which every node has exactly three neighbours, every network of the run is again of this kind and arises from the one before by replacing every node x by the triangle xa, xb, xc, whose corners get one edge of x each; so state t has 3^t times the initial number of nodes, and connected networks stay connected. For the network of the demo: 4 * 3^t nodes, connected. A node with four neighbours lets the run raise IndexError.", "quantifier": "every network of this kind whose labels are strings of which none is another one extended by a, b or c; every number of timesteps", "why_tests_cant": "the networks grow exponentially, and the corner an edge gets depends on the order in which edges were inserted; that no edge is lost or doubled while nodes are replaced one after the other needs an invariant over the partly replaced network", "anchors": ["demos/evolving_networks/evolving_networks_demo.py:topology_rule", "netomaton/evolution.py:evolve", "netomaton/state.py:Network"]}
{"id": "C98", "title": "Functional network automata spread along shortest paths and consume the edges behind them", "statement": "With the activity rule (active if a neighbour is, otherwise unchanged) and the topology rule (remove the edges between active nodes) of the functional network automaton, and no parallel edges, exactly the nodes that the initially active ones reach along at most t edges of the initial network are active in state t, and from state 1 on exactly the edges between active nodes are missing; node attributes and nodes are unchanged. On the lattice of the demo, for all sizes and dimensions, node x is active in state t if and only if the sum of its coordinates is at most t. Two parallel edges between nodes that become active in the first timestep let the run raise KeyError.", "quantifier": "every network without parallel edges and rotation system, every assignment of 0 and 1, every number of timesteps; every lattice that is not periodic with at least two nodes", "why_tests_cant": "the edges along which the activity would spread are deleted while it spreads; that nothing is cut off too early is an invariant over all timesteps, networks and initial conditions", "anchors": ["demos/functional_network_automata/functional_network_automata_demo.py:topology_rule", "netomaton/evolution.py:evolve", "netomaton/topology/networks.py:lattice"]}
{"id": "C99", "title": "The finite difference demos compute the schemes of their equations, which stay within the bounds of the initial values", "statement": "The states of the demos of linear convection, nonlinear convection, diffusion, simple diffusion and the Burgers equation on cellular_automaton(n) are the iterates of the upwind and forward schemes on a ring of n cells, with or without memoization. Linear convection and diffusion keep the total of the values. The values stay between the least and the greatest initial value if 0 <= k dt/dx <= 1 (convection), 0 <= nu dt/dx^2 <= 1/2 (diffusion), or the least value is not negative and greatest*dt/dx + 2 nu dt/dx^2 <= 1 (Burgers, nonlinear convection); with k dt = dx the values move one cell to the right per timestep. dx = 0 raises ZeroDivisionError.", "quantifier": "every ring of at least 3 cells, all rational coefficients and initial values, every number of timesteps", "why_tests_cant": "stability depends on the coefficients and on the initial values; a run shows one choice of them, and a wrong neighbour or sign can look plausible for many steps", "anchors": ["demos/continuous_time_models/linear_convection_demo.py:activity_rule", "demos/continuous_time_models/nonlinear_convection_demo.py:activity_rule", "demos/continuous_time_models/diffusion_demo.py:activity_rule", "demos/continuous_time_models/simple_diffusion_demo.py:activity_rule", "demos/continuous_time_models/burgers_equation_demo.py:activity_rule", "netomaton/evolution.py:evolve"]}
{"id": "C100", "title": "The wave equation demo conserves energy and can be run backwards", "statement": "Without memoization the states of the wave equation demo on cellular_automaton(n) with past conditions p are the iterates of the central difference scheme started from p and the initial conditions. The discrete energy of two successive states is the same at all times; started at rest (p equal to the initial conditions, as in the demo) the total of the values is the same at all times; with state T as initial and state T+1 as past conditions the run shows the states T, T-1, ..., 0. Without past conditions TypeError is raised.", "quantifier": "every ring of at least 3 cells, all rational dt, dx with dx not 0, all initial and past conditions, every number of timesteps", "why_tests_cant": "conservation and reversal hold exactly over any number of timesteps only if past activities are those of exactly the state before the last", "anchors": ["demos/continuous_time_models/wave_equation_demo.py:activity_rule", "netomaton/evolution.py:evolve"]}
{"id": "C101", "title": "The spring demo keeps its energy bounded for ever", "statement": "The states of the single spring demo are the iterates of the semi-implicit Euler method (the velocity changes with the new position), with or without memoization. The quantity v^2 + 6 x^2 + 6 dt x v is the same at all times; if 6 dt^2 <= 1 the energy v^2 + 6 x^2 stays between a third and three times its initial value. The equations documented in the demo (the velocity changes with the old position) multiply the energy by 1 + 6 dt^2 at every step, and give another trajectory from every start off the origin.", "quantifier": "all rational time steps and initial positions and velocities, every number of timesteps", "why_tests_cant": "the energy bound is about all times; a run of some length shows neither that it holds for ever nor which of the two methods is coded", "anchors": ["demos/continuous_time_models/single_spring_netomaton_demo.py:activity_rule", "netomaton/evolution.py:evolve"]}
{"id": "C102", "title": "Both Lorenz attractor demos compute the same trajectory", "statement": "Without memoization the state of the node of the first Lorenz demo and the states of the nodes x, y, z of the second one are the iterates of Euler's method for the Lorenz equations; the rows plotted by the second demo are the points plotted by the first. The trajectory is symmetric under (x, y, z) -> (-x, -y, z); the z axis is invariant; the fixed points of the iteration are exactly those of the equations.", "quantifier": "all rational constants, time steps and initial points, every number of timesteps", "why_tests_cant": "the system is chaotic: agreement of two programs on one trajectory for some steps says nothing about others", "anchors": ["demos/lorenz_attractor/lorenz_attractor_demo.py:activity_rule", "demos/lorenz_attractor/lorenz_attractor_demo2.py:activity_rule", "netomaton/state.py:Network", "netomaton/evolution.py:evolve", "netomaton/utils.py:get_activities_over_time_as_list"]}
{"id": "C103", "title": "The logistic map demo iterates the logistic map with each node's growth rate", "statement": "Without memoization node i of the logistic map demo shows the iterates of x -> r x (1 - x) with the growth rate r of its self-loop; with memoization this holds if all growth rates are equal. For 0 <= r <= 4 a start in [0, 1] stays in [0, 1], and later values are at most r/4; for r <= 1 the values fall at every step; the fixed points are 0 and 1 - 1/r; for 0 <= r < 3 there is no state of period two. Without the self-loops KeyError is raised.", "quantifier": "all non-empty lists of rational growth rates, all initial values, every number of timesteps", "why_tests_cant": "the growth rate is looked up through the edge data of each node; the laws hold for all rates and starts", "anchors": ["demos/logistic_map/logistic_map_demo.py:activity_rule", "netomaton/evolution.py:NodeContext.edge_data", "netomaton/evolution.py:evolve"]}
{"id": "C104", "title": "The continuous automaton demo", "statement": "The states of the continuous automaton demo on cellular_automaton(n) are the iterates of the map taking three values to the fraction of half their sum, with or without memoization. Later values lie between -1 and 1, and in [0, 1) if the initial values are not negative; from whole numbers the values after t steps have denominator 2^t; the value of a cell after t steps depends on the initial values at most t cells away only. Without neighbours ZeroDivisionError is raised.", "quantifier": "every ring of at least 3 cells, all rational initial values, every number of timesteps", "why_tests_cant": "all later states are covered, including negative values, for which modf rounds the other way", "anchors": ["demos/continuous_automata/continuous_automata_demo.py:activity_rule", "netomaton/evolution.py:evolve"]}
{"id": "C105", "title": "The reaction diffusion demo conserves matter up to feed and loss", "statement": "The states of the reaction diffusion demo on cellular_automaton2d(rows, cols) with the von Neumann neighbourhood are the iterates of the Gray-Scott scheme on the torus, with or without memoization. The totals of both substances change by the reaction, the feed f (1 - u) and the loss k v only; without feed and loss the total of both is constant; without the second substance it never appears and u = 1 is steady. If 0 <= u <= 1 and v >= 0 and the rates are small, then after a step u <= 1 and v >= 0, and u >= 0 where v^2 <= 1 - 4 r_u - f.", "quantifier": "every torus with at least 3 rows and columns, all rational rates and initial concentrations, every number of timesteps", "why_tests_cant": "conservation involves all cells of a torus and holds at all times", "anchors": ["demos/reaction_diffusion/reaction_diffusion_demo.py:react_diffuse", "netomaton/topology/adjacency.py:cellular_automaton2d", "netomaton/evolution.py:evolve"]}
{"id": "C106", "title": "A perturbation acts as a second rule after the activity rule, and its effects spread at most one link per timestep", "statement": "Without memoization a call with a perturbation is the call whose activity rule is the given one followed by the perturbation, for rules that do not remove the node they are invoked for. Two runs of a local rule with different perturbations show the same activity of a node in state t if the initial conditions agree within t links and the perturbations of every timestep s <= t agree within t - s links. In the perturbed elementary automaton demo the states are those of the automaton with one forced cell, and agree with the unperturbed automaton at all cells at least t cells away; for rule 30 that speed is attained.", "quantifier": "all rules, perturbations, networks, initial conditions, sequences of random draws and numbers of timesteps; for the demo rings of at least three cells", "why_tests_cant": "the claim compares two runs at every node and time for arbitrary random draws", "anchors": ["netomaton/evolution.py:evolve", "demos/perturbation_demo/perturbation_eca_demo.py:perturb"]}
{"id": "C107", "title": "The perceptron demo computes a feed-forward network, one layer per timestep", "statement": "On the complete network with self-loops, evolve with the demo rules gives in state t the outputs of layer t, and every edge carries the weight of the next layer: the one given for timestep t if there is one, otherwise the earlier one. With the three matrices of the demo, node j < m of the last state holds entry j of M3 relu(M2 relu(M1 x)); the remaining nodes use the left-over rows of M2. read_weights transposes the file. Weights for an edge that does not exist make the call raise.", "quantifier": "all sizes, weight matrices, activation functions, inputs and numbers of timesteps", "why_tests_cant": "the demo has one image and one set of weights; the claim is about all of them", "anchors": ["demos/mlp/mlp_demo.py:activity_rule", "demos/mlp/mlp_demo.py:topology_rule", "demos/mlp/mlp_demo.py:read_weights"]}
{"id": "C108", "title": "Particle swarms keep the best solutions found", "statement": "In the global version every particle's p is a best one of the positions it has visited, and the variable g is a best one of the positions visited by any particle, in every state; a particle moves by the formula of the algorithm, attracted by its own p and by the best position known when it is visited (the last g, or an improvement by a node before it). In the local and dynamic versions g is a best one of the p of the node's neighbours in the network of the state; a node without neighbours makes the call raise. Of the two objective functions, the sphere is the sum of squares (least exactly at the origin) and the camel function is symmetric, never below -1.032 and below -1.0316 at the two points that the demo names.", "quantifier": "all objective functions, networks, dimensions, coefficients, random numbers, initial swarms and numbers of timesteps", "why_tests_cant": "the demos draw random numbers; the claim is about every run and every state", "anchors": ["demos/optimizing_particle_swarms/pso_demo.py:activity_rule", "demos/optimizing_particle_swarms/pso_local_demo.py:activity_rule", "demos/optimizing_particle_swarms/pso_dynamic_demo.py:topology_rule"]}
{"id": "C109", "title": "The restricted Boltzmann machine demo performs Gibbs sampling", "statement": "On the bipartite network of the demo, evolve with the demo rule alternates: at odd timesteps every hidden unit is drawn from its bias plus the weighted sum of the visible units and the visible layer is kept, at even timesteps the other way round; biases never change. This does not depend on the iteration order of the two sets. From the rows of the three files to the images, get_visible_activities returns the visible layers of that chain. A pair of units without a weight makes bipartite raise KeyError.", "quantifier": "all numbers of units and timesteps, all weights and biases, all orders of the sets, all random starts and all results of the draws; calls without memoization", "why_tests_cant": "the demo has one set of files and one seed", "anchors": ["demos/restricted_boltzmann_machine/rbm_demo.py:activity_rule", "demos/restricted_boltzmann_machine/rbm_demo.py:get_visible_activities", "demos/restricted_boltzmann_machine/rbm_demo.py:read_weights"]}
{"id": "C110", "title": "The flocking demo is a one-way flock with accumulating edges", "statement": "With the rules of the demo, boid j sees exactly the boids i < j within visual range: it moves by cohesion and alignment with those outside the protected range, separation from the others and turning, with the speed limited. The network of state t has as many parallel edges from i to j > i as timesteps since the two came within visual range, and no other edges. A boid never depends on boids with greater numbers, so boid 0 sees nobody. With exact roots the speed stays within the limits. extract_frames lists positions and velocities by number.", "quantifier": "all numbers of boids and timesteps, all starts, all parameters with positive ranges and ordered speed limits", "why_tests_cant": "the demo has one seed; edges accumulate over the run and their direction is not visible in the plot", "anchors": ["demos/flocking/flocking_demo.py:activity_rule", "demos/flocking/flocking_demo.py:topology_rule", "demos/flocking/flocking_demo.py:extract_frames"]}
{"id": "C111", "title": "Sandpiles come to rest, and the resting pile does not depend on the order of topplings", "statement": "With a closed boundary and no negative numbers of grains, a run of Sandpile comes to rest within half the weighted number of grains (weight a(rows-1-a) in row a). The resting pile is the one reached by toppling single unstable cells one after the other, in whatever order: every such sequence can be continued to it and no other resting pile is reachable. When grains are dropped by a perturbation, the resting pile does not depend on when they are dropped. Cells of the edge with four grains or more spill once, at the first timestep. With an open boundary and more than three grains per cell on average the pile never comes to rest.", "quantifier": "all grids from 3 x 3, all initial numbers of grains, all timesteps and places of the drops, all orders of toppling; calls without memoization", "why_tests_cant": "independence of the order is a statement about all orders; the time to rest depends on the start", "anchors": ["netomaton/sandpile.py:Sandpile.activity_rule", "demos/sandpiles/sandpile_demo.py:perturb", "netomaton/evolution.py:evolve"]}
{"id": "C112", "title": "The majority vote on an undirected network has period one or two", "statement": "On a network whose neighbourhoods are those of an undirected graph in which every node has an odd number of neighbours (itself counted if it has a self-loop), evolve with majority_rule and binary initial states gives the majority vote, under every version of Python and whatever np.random.choice returns; its states repeat with period two from the timestep on at which twice the timestep reaches the number of pairs of neighbours less the number of nodes. In particular cellular_automaton(n, r) repeats with period two from timestep n*r on. Both conditions are needed: on a directed cycle, and on an undirected cycle with ties, there are runs of period three.", "quantifier": "all networks (from_adjacency_matrix of any symmetric matrix, cellular_automaton of any size and radius in particular), all initial states, all numbers of timesteps, with and without memoization; for cellular_automaton n >= 3 and n >= 2 r + 1", "why_tests_cant": "the period is a statement about all later timesteps and all graphs; a transient has no bound that does not depend on the graph", "anchors": ["netomaton/rules/activity_rule.py:majority_rule", "netomaton/topology/networks.py:from_adjacency_matrix", "netomaton/topology/networks.py:watts_strogatz_graph", "demos/small_world_density_classification/small_world_density_classification_demo.py", "netomaton/evolution.py:evolve"]}
{"id": "C113", "title": "Reversible elementary automata: the demo is a palindrome, and every evolution is periodic", "statement": "On cellular_automaton(n) with a rule number below 256 and binary states, evolve with ReversibleRule(nks_ca_rule(R)) gives the second-order automaton (result of the rule XOR the row before). In the 214R demo, whatever the rule, size, initial state and number of timesteps, the second evolution shows the first in reverse down to the initial state and then forwards again: a palindrome. A second-order automaton is periodic from its first row, with period at most 4^n; an ordinary elementary automaton is periodic after a transient, transient and period together at most 2^n.", "quantifier": "all n >= 3, all 256 rules, all binary initial and past states, all numbers of timesteps; calls without memoization", "why_tests_cant": "the demo shows one rule, one size and one initial state; a period of up to 4^63 timesteps cannot be run", "anchors": ["netomaton/reversible_rule.py:ReversibleRule.__call__", "demos/reversible_ca/rule214R_demo.py", "netomaton/rules/activity_rule.py:nks_ca_rule", "netomaton/evolution.py:evolve"]}
{"id": "C114", "title": "Substitution systems with keys of one symbol; the Thue-Morse and Fibonacci demos", "statement": "A system whose keys have one symbol is a morphism: the word after s+t steps is the concatenation of the words that grow in t steps from the symbols of the word after s steps. In the first demo row t has 2^t cells, and cell k is 2 or 1 according to the parity of the number of binary ones of k. In the second demo row t+2 is row t+1 followed by row t, the lengths are the Fibonacci numbers, and no two 2s are adjacent.", "quantifier": "every system with keys of one symbol that maps its alphabet into itself, every number of timesteps; the two demos for every number of timesteps", "why_tests_cant": "the demos run six timesteps", "anchors": ["netomaton/substitution_system.py:SubstitutionSystem.activity_rule", "demos/substitution_systems/substitution_system_demo1.py", "demos/substitution_systems/substitution_system_demo2.py", "netomaton/evolution.py:evolve"]}
{"id": "C115", "title": "What the Lindenmayer demos draw", "statement": "With exact angles, row t of the demos gives: Koch: 5^t connected segments from the origin to (3^t, 0). Sierpinski: 3^(t+1) connected segments that come back to the origin. Moore: a connected path of unit segments that visits every point of a grid of 2^(t+1) by 2^(t+1) points exactly once and ends next to its start. Tree and plant: rendering never raises, the stack ends empty, and (t+2)*2^t/2 and 3*(4^t-2^t)/2 segments are drawn.", "quantifier": "every number of timesteps; every commutative ring with functions sin, cos that satisfy the laws of turns by 90 or 120 degrees (integers for the Moore curve; any functions for tree and plant)", "why_tests_cant": "the demos draw one generation each and nobody counts the points", "anchors": ["netomaton/utils.py:_render_L_system", "netomaton/turtle.py:Turtle", "netomaton/substitution_system.py:SubstitutionSystem.activity_rule", "demos/lindenmayer_systems/koch_curve_demo.py", "demos/lindenmayer_systems/sierpinski_triangle_demo.py", "demos/lindenmayer_systems/moore_curve_demo.py", "demos/lindenmayer_systems/fractal_tree_demo.py", "demos/lindenmayer_systems/fractal_plant_demo.py", "netomaton/evolution.py:evolve"]}
{"id": "C116", "title": "Patterns of the Game of Life travel around the torus for ever", "statement": "A finite pattern that, on the unbounded plane, comes back after p steps moved by v, and whose p generations each leave two rows and two columns of the torus free, placed anywhere: at every time t the live cells of evolve are those of generation t % p of the plane moved t // p times by v, around the torus. So a glider on at least 5 by 5 cells moves one cell diagonally every four steps for ever. Patterns between which no cell touches both do not disturb each other; so in the demo, for up to 184 timesteps, the spaceship, the glider and the blinker move as if alone.", "quantifier": "every torus of at least 3 by 3 cells on which the pattern leaves two rows and columns free; every finite pattern, period, displacement, place and number of timesteps (at most 184 for the demo)", "why_tests_cant": "two tests, without and with memoize, compare one run of 180 timesteps on the 60 by 60 torus with recorded states; other tori, places and longer runs are not tested", "anchors": ["netomaton/rules/activity_rule.py:game_of_life_rule", "netomaton/topology/networks.py:cellular_automaton2d", "demos/game_of_life/game_of_life_demo.py", "netomaton/evolution.py:init_simple2d", "netomaton/evolution.py:evolve"]}
{"id": "C117", "title": "The Turing machine of the demo decides a^n b^n c^n", "statement": "On every word over the letters a, b, c written between blanks, with the head on its first cell (on a blank when the word is empty), the machine of the demo is in state q6 after t steps exactly when the word is a^n b^n c^n and t is at least 4n^2 + 5n + 3 (1 if n = 0). So the head-centric machine terminating in q6 returns 4n^2 + 5n + 4 states, only the last one accepting, when the limit allows it; on every other word it runs to its limit without an accepting state, and for ever without a limit; and the tape-centric machine shows q6 exactly from that step on.", "quantifier": "every word over the three letters, every number (at least 1) of blanks on either side, every time, every limit", "why_tests_cant": "the demos run the single word aabbcc and assert nothing; the unit tests of the machines run the same word", "anchors": ["demos/turing_machine/turing_machine_demo1b.py", "demos/turing_machine/turing_machine_demo2b.py", "netomaton/turing_machine.py:HeadCentricTuringMachine", "netomaton/turing_machine.py:TapeCentricTuringMachine", "netomaton/evolution.py:evolve"]}
{"id": "C118", "title": "The universal Turing machine of the demo emulates rule 110", "statement": "On the tape b^L a v a^R, where v is a word of bits written with a and e and the head is up on the first cell after v, for every k at most L and below R: after k(2|v| + 2k + 3) steps the tape shows row k of elementary automaton 110 from v in the middle of zeros, with the head up and k cells further right. These are exactly the times at which the head is further to the right than ever before, so the rows kept by the demos (head-centric and tape-centric) are the successive rows of rule 110, and they are the cells that evolve itself computes with nks_ca_rule(110).", "quantifier": "every word of bits, every number of b to the left and a to the right, every number of rows that leaves one b and two a, every number of timesteps; every ring with room for the pattern and at least three cells", "why_tests_cant": "two unit tests, one per kind of machine, compare one run of 58 timesteps of the first tape with recorded values; the long run of the demo is only plotted", "anchors": ["demos/turing_machine/turing_machine_demo1c.py", "demos/turing_machine/turing_machine_demo2c.py", "netomaton/turing_machine.py:HeadCentricTuringMachine", "netomaton/turing_machine.py:TapeCentricTuringMachine", "netomaton/rules/activity_rule.py:nks_ca_rule", "netomaton/evolution.py:evolve"]}
{"id": "C119", "title": "Wireworld circuits: signals, the diodes and the exclusive-or gate of the demos", "statement": "Every ordinary run of evolve with wireworld_rule on a two-dimensional cellular automaton is Wireworld on the torus, also as sets of heads and tails on a fixed wiring: the wiring never changes, and without heads there are never heads again. On any closed wire any trains of electrons move one cell per step for ever. In the demo with the diodes the electron of the upper row passes and runs around the torus for ever, and that of the lower row never comes past the diode. In the demo with the gate the circuit has period 18, and there is a head at the output four steps after exactly one of the inputs has one; all four combinations of inputs occur.", "quantifier": "every torus with at least three rows and columns, every picture of the four states, every closed wire whose cells touch only their neighbours along the wire, every number of trains with a free cell in front of each head, every number of timesteps (the diodes and the gate: the two circuits of the demos, for every number of timesteps)", "why_tests_cant": "the unit tests compare the two circuits of the demos with recorded runs (with and without memoize), for the recorded number of timesteps only; no other circuit is run", "anchors": ["demos/wireworld/wireworld_diodes_demo.py", "demos/wireworld/wireworld_xor_demo.py", "netomaton/rules/activity_rule.py:wireworld_rule", "netomaton/topology.py:cellular_automaton2d", "netomaton/evolution.py:evolve"]}
{"id": "C120", "title": "Sequential cellular automata: cells change one after the other, and rule 60 draws Sierpinski's triangle", "statement": "evolve with AsynchronousRule(nks_ca_rule(R), update_order) on a ring shows, in state t, the cells after t updates of single cells, in the given order again and again. With rule 60 and the order 1, ..., m, after k + 1 sweeps cell x is the parity of the number of initial ones i up to x for which k and x - i have no binary digit 1 in common; all rows repeat after 2^e sweeps if m < 2^e. The rows plotted by the demo are those of Sierpinski's triangle.", "quantifier": "every ring of at least three cells, every rule number below 256, every update order without repetitions, every initial row of bits, every number of timesteps; the sweeps: every m below the number of cells, every number of sweeps; without memoization (C38)", "why_tests_cant": "two unit tests, with one rule and one order each, compare every 19th row of a run on 21 cells with 20 recorded rows", "anchors": ["demos/asynchronous_automata/asynchronous_automata_demo.py", "netomaton/asynchronous_rule.py:AsynchronousRule", "netomaton/rules/activity_rule.py:nks_ca_rule", "netomaton/utils.py:get_activities_over_time_as_list", "netomaton/evolution.py:evolve"]}
{"id": "C121", "title": "Cellular automata of any radius, and the limits of density classification", "statement": "evolve with binary_ca_rule(R) on cellular_automaton(n, r=r) shows the automaton of radius r whose local rule has the number R, the leftmost digit standing for the window of zeros. Whatever r and R, some row on some ring with an odd number of cells does not settle on the value of its majority. The rule of the density classification demo keeps the two uniform rows, but on its 149 cells a row with 74 ones becomes all 1 and a row with 75 ones becomes all 0.", "quantifier": "every radius, every ring of at least 2r + 1 and three cells, every rule number below 2^(2^(2r+1)), every binary row, every number of timesteps, with and without memoization; the impossibility: every radius and every local rule, also one without a number", "why_tests_cant": "the unit tests compare one recorded run of the rule on one row; that no rule classifies every row cannot be tested", "anchors": ["demos/ca_density_classification/ca_density_classification_demo.py", "netomaton/rules/activity_rule.py:binary_ca_rule", "netomaton/topology/networks.py:cellular_automaton", "netomaton/evolution.py:evolve"]}
{"id": "C122", "title": "plot1D draws every series with its colour, label and axis", "statement": "For all arguments that the documentation allows, plot1D draws every series once, the series in turn on the axes, each with its colour and label, and gives every y-axis its label and both its limits.", "quantifier": "all series, all options that the documentation allows, all versions of Python", "why_tests_cant": "no unit test calls plot1D", "anchors": ["netomaton/utils.py:plot1D"]}
{"id": "C123", "title": "The animations show every frame in turn, and everything fits between the limits", "statement": "Call number k of the update function of animate_activities or animate_hex shows frame k mod n with the number of its timestep, so that n calls in a row show each of the n frames once. The limits of Turtle.animate contain all end points, with a margin of a twentieth of the extent above and a twentieth of that larger extent below.", "quantifier": "all numbers of frames and calls, all drawings with rational coordinates", "why_tests_cant": "no unit test calls the animations", "anchors": ["netomaton/utils.py:animate_activities", "netomaton/hexplot.py:animate_hex", "netomaton/turtle.py:Turtle.animate"]}
{"id": "C124", "title": "A two-dimensional automaton is the automaton on the plane with repeated initial conditions", "statement": "On cellular_automaton2d with radius 1 and the Moore or the von Neumann neighbourhood, or the hexagonal one with an even number of rows, evolve with a rule that depends on the activity of the cell and on the activities around it in any order shows the states of the automaton on the infinite plane, started from the initial conditions repeated in both directions. After t steps a cell depends only on the cells within t rows and t columns, so that the torus is the plane as long as its edge has not been felt.", "quantifier": "every such rule on every type of activity, every size from 3 x 3 on (Hex: an even number of rows), all initial conditions, every number of timesteps, with and without memoization", "why_tests_cant": "the unit tests compare recorded runs at a few sizes; none relates a torus to the plane or to another torus", "anchors": ["netomaton/topology/networks.py:cellular_automaton2d", "netomaton/topology/adjacency.py", "netomaton/evolution.py:evolve"]}
{"id": "C125", "title": "The growth of the hexagonal and of the two-dimensional totalistic demo", "statement": "Started from init_simple2d and as long as twice the time is less than the number of rows and of columns: the hexagonal demo has, at time t, on the outline of the hexagon of radius t, the rows of Pascal's triangle modulo 2 on each of the six sides (a whole outline at the times 2^n - 1, six cells at the times 2^n), nothing beyond it, and cells stay alive; the two-dimensional totalistic automaton of rule 126, and of every rule with digits 1, 2, 3 one and digit 0 zero, has at time t the whole outline of the square of radius t and nothing beyond it.", "quantifier": "every size (Hex: an even number of rows), every time before the pattern meets itself, every rule number below 2^10 with these digits, with and without memoization; at least three rows and three columns", "why_tests_cant": "one test compares the hexagonal demo with a recorded run and two tests compare the two-dimensional rule 126, without and with memoize, with a recorded run; no test covers another size or the structure", "anchors": ["demos/hexagonal_ca/hexagonal_ca_demo.py", "demos/totalistic_ca2d/totalistic_2d_demo.py", "netomaton/rules/activity_rule.py:totalistic_ca", "netomaton/utils.py:init_simple2d", "netomaton/evolution.py:evolve"]}
{"id": "C126", "title": "plot_activities shows the chosen state in the given shape", "statement": "For all trajectories and all shapes that _reshape_for_animation takes, plot_activities shows the activity of node i * cols + j of the chosen state in row i and column j, without a shape all states below each other; annotations stand in the middle of their cells, and the grid of pictures and animations consists of the borders of the cells.", "quantifier": "all trajectories, shapes, slices, annotations, all sizes of images", "why_tests_cant": "no unit test calls plot_activities, plot_grid, plot_grid_multiple or animate_activities", "anchors": ["netomaton/utils.py:plot_activities", "netomaton/utils.py:plot_grid", "netomaton/utils.py:plot_grid_multiple", "netomaton/utils.py:animate_activities", "netomaton/utils.py:animate_plot1D"]}
{"id": "C127", "title": "plot_network and animate_network draw the nodes and edges of the network", "statement": "For every network built by any operations, plot_network draws its nodes in their order and as many edges between two nodes as the network has. animate_network has one frame per state; frame i can be drawn exactly if there is a colour and a known layout for it, and it shows the network of state i with them, and the number i + 1 if timesteps are wanted.", "quantifier": "all networks, all lists of states, layouts and colours", "why_tests_cant": "no unit test calls plot_network or animate_network", "anchors": ["netomaton/utils.py:plot_network", "netomaton/utils.py:animate_network"]}
{"id": "C128", "title": "Which elementary rules are reversible", "statement": "evolve on cellular_automaton(n), n >= 4, with nks_ca_rule(R): two runs that agree in some state have the same initial conditions, and the run returns to them, exactly if R is 15, 51, 85, 170, 204 or 240, or n is odd and R is 45, 75, 89, 101, 154, 166, 180 or 210, or n is not a multiple of 3 and R is 105 or 150; for all other R there are different initial conditions whose runs agree from the second state on. A rule is reversible on a ring exactly if every row has a predecessor, and exactly if every row returns within 2^n steps. On n = 3 cells 36 rules are reversible.", "quantifier": "all n >= 3, all 256 rules, all initial conditions, timesteps, with or without memoize", "why_tests_cant": "tests run a few rules on rings of fixed size for a fixed number of timesteps; this is about every ring, every rule and every pair of runs", "anchors": ["netomaton/evolution.py:evolve", "netomaton/rules/activity_rule.py:nks_ca_rule", "netomaton/rules/activity_rule.py:binary_ca_rule", "netomaton/topology/networks.py:cellular_automaton"]}
{"id": "C129", "title": "Which elementary rules keep the number of ones", "statement": "evolve on cellular_automaton(n), n >= 4, with nks_ca_rule(R): the activities of all states add up to the same number for all initial conditions exactly if R is 170, 184, 204, 226 or 240. On n = 3 cells also 172, 202, 216 and 228 keep it.", "quantifier": "all n >= 3, all 256 rules, all initial conditions, timesteps, with or without memoize", "why_tests_cant": "tests run a few rules on rings of fixed size for a fixed number of timesteps; this is about every ring, every rule and every pair of runs", "anchors": ["netomaton/evolution.py:evolve", "netomaton/rules/activity_rule.py:nks_ca_rule", "netomaton/rules/activity_rule.py:binary_ca_rule", "netomaton/topology/networks.py:cellular_automaton"]}
{"id": "C130", "title": "Mirrored and complemented elementary rules", "statement": "With the mirrored rule number and mirrored initial conditions the run of evolve is the mirrored run; with the complemented rule number and complemented initial conditions it is the complemented run. Both are commuting involutions of the rule numbers; there are 88 rules up to them.", "quantifier": "all n >= 3, all 256 rules, all initial conditions, timesteps", "why_tests_cant": "tests run a few rules on rings of fixed size for a fixed number of timesteps; this is about every ring, every rule and every pair of runs", "anchors": ["netomaton/evolution.py:evolve", "netomaton/rules/activity_rule.py:nks_ca_rule", "netomaton/rules/activity_rule.py:binary_ca_rule", "netomaton/topology/networks.py:cellular_automaton"]}
{"id": "C131", "title": "Additive elementary rules", "statement": "The additive rules are 0, 60, 90, 102, 150, 170, 204 and 240. With them state t of the run is the sum modulo 2 of the runs from single cells; state 2^k is the rule applied to the cells 2^k places away; rule 90 on 2^(k+1) cells is all 0 from state 2^k on, whatever the initial conditions.", "quantifier": "all n >= 3, all initial conditions, timesteps, all k", "why_tests_cant": "tests run a few rules on rings of fixed size for a fixed number of timesteps; this is about every ring, every rule and every pair of runs", "anchors": ["netomaton/evolution.py:evolve", "netomaton/rules/activity_rule.py:nks_ca_rule", "netomaton/rules/activity_rule.py:binary_ca_rule", "netomaton/topology/networks.py:cellular_automaton"]}
{"id": "C132", "title": "Where the turtle is and what its animation shows", "statement": "Without repeat the frames of Turtle.animate show the drawing so far, the last one what Turtle.plot draws. With repeat=True the axes are cleared by the frame of the last segment, so that the complete drawing is never on the axes: after k frames it is the first k mod n segments. The turtle is never farther from its start than the distances of forward add up to. Forward d and rotate a, k times, leads back to the start exactly if d = 0 or k a is a multiple of 360 (a itself no multiple of 360); the star of the unit test ends after exactly 36 rounds, at the start.", "quantifier": "all drawings, frames, sequences of methods (real coordinates), all d, a and k", "why_tests_cant": "the unit test of the turtle draws one star; no unit test calls animate", "anchors": ["netomaton/turtle.py:Turtle.animate", "netomaton/turtle.py:Turtle.plot", "netomaton/turtle.py:Turtle.pos", "netomaton/turtle.py:Turtle.abs"]}
{"id": "C133", "title": "The permutation matrix of the TSP network", "statement": "Entry (p, c) of get_permutation_matrix is V of the last activity of the node of point p and position c; without states it raises IndexError, with another number of nodes ValueError. As V keeps the order of the activities, get_tour_graph returns for it what it returns for the activities themselves, for every u_0 > 0.", "quantifier": "all numbers of points, all activities (real numbers), all u_0 > 0", "why_tests_cant": "the unit test reads one matrix of one run", "anchors": ["netomaton/hopfield_tank_tsp_net.py:HopfieldTankTSPNet.get_permutation_matrix", "netomaton/hopfield_tank_tsp_net.py:HopfieldTankTSPNet.get_tour_graph"]}
{"id": "C134", "title": "to_configurations returns the chain of rewritings", "statement": "For every run of a Wolfram model that does not fail, to_configurations returns one configuration per timestep: the first has the non-empty relations of the given one, and item t those of the t-th of a chain in which each is a rewriting of the one before. If a state has no network, it raises. A run whose rule has a node on its right-hand side does not fail.", "quantifier": "all rules with non-empty left-hand side, all configurations with a node, all numbers of timesteps", "why_tests_cant": "the unit tests compare the configurations of a few rules for a few timesteps", "anchors": ["netomaton/wolfram_physics_model.py:WolframPhysicsModel.to_configurations", "netomaton/wolfram_physics_model.py:WolframPhysicsModel.network_to_config"]}
{"id": "C135", "title": "The Hopfield net of the demo completes its patterns", "statement": "If for every unit the field of the units where the initial pattern s has the values of p cannot be outvoted by the other units, then at every timestep, whatever the shuffles, the units chosen so far have the value of p and all others their initial value; once all wrong units have been chosen the state is p for ever. The three half patterns of the demo satisfy this. No number of timesteps is enough for every sequence of shuffles.", "quantifier": "all training sets, patterns and initial conditions with that property, all sequences of shuffles, all numbers of timesteps; calls without memoization, topology rule and perturbation", "why_tests_cant": "the unit test runs the net from one half pattern with the random numbers of one seed", "anchors": ["netomaton/hopfield_net.py:HopfieldNet.train", "netomaton/hopfield_net.py:HopfieldNet._rule", "netomaton/asynchronous_rule.py:AsynchronousRule", "netomaton/evolution.py:evolve", "demos/hopfield_net/hopfield_net_demo.py"]}
{"id": "C136", "title": "A Hopfield net comes to rest, though not always in a training pattern", "statement": "Whatever the training set, the initial pattern and the shuffles, at most n + the sum of the absolute values of all weights timesteps change the state; after some timestep, the same for runs of all lengths, nothing changes any more, and if every unit is chosen after it, each has the sign of its field. The state of rest need not be a training pattern nor the inverse of one, even if all training patterns are states of rest.", "quantifier": "all n, training sets without isolated units, bipolar initial patterns, sequences of shuffles and numbers of timesteps; calls without memoization, topology rule and perturbation", "why_tests_cant": "the unit test runs the net from one half pattern with the random numbers of one seed", "anchors": ["netomaton/hopfield_net.py:HopfieldNet.train", "netomaton/hopfield_net.py:HopfieldNet._rule", "netomaton/asynchronous_rule.py:AsynchronousRule", "netomaton/evolution.py:evolve", "demos/hopfield_net/hopfield_net_demo.py"]}
{"id": "C137", "title": "Small-world networks are simple, complete in their nodes, and keep the number of links", "statement": "For 2 <= k < n, whatever the random generator yields, watts_strogatz_graph returns (once every node has been drawn at the latest) an undirected network whose nodes are exactly 0..n-1, without loops and parallel links, all weights 1, with n * (k // 2) links and at least k // 2 neighbours per node. For k = n >= 2 it is the complete network; one node is lost if n = k = 1; all other arguments are rejected.", "quantifier": "all natural n and k, all outcomes of the random generator", "why_tests_cant": "the unit test takes n=149, k=8, p=0.5 and one seed, and looks only at the activities of a run on the network", "anchors": ["netomaton/topology/networks.py:watts_strogatz_graph", "netomaton/topology/networks.py:from_adjacency_matrix"]}
{"id": "C138", "title": "Without rewiring, each node of a small-world network has its k nearest neighbours", "statement": "With p = 0 each node is joined to exactly its k nearest neighbours on the ring, as documented for k.", "quantifier": "all natural n and k with 2 <= k < n", "why_tests_cant": "the unit test has p=0.5; no demo or test has an odd k", "anchors": ["netomaton/topology/networks.py:watts_strogatz_graph", "netomaton/topology/networks.py:from_adjacency_matrix"]}
{"id": "C139", "title": "The extreme values of entropy and mutual information mean what they should", "statement": "The entropy of a string is log2 of its number of different symbols exactly if all of them occur equally often. The mutual information of two strings of equal length is 0 exactly if each pair of symbols has the product of the two frequencies as its frequency, and the whole entropy of the second string exactly if equal symbols of the first always stand at equal symbols of the second.", "quantifier": "all strings over any alphabets, all orders in which the sets of symbols are visited", "why_tests_cant": "the unit tests compare the values for a few strings, most to three or four decimals; none has mutual information 0", "anchors": ["netomaton/analysis.py:shannon_entropy", "netomaton/analysis.py:joint_shannon_entropy", "netomaton/analysis.py:mutual_information"]}
{"id": "C140", "title": "An automaton with finitely many states repeats itself", "statement": "On any network, if the activity rule depends only on the node, its state and the states of its neighbours and all states come from a list of k values, then there are i < j <= k^n (n the number of nodes) such that from timestep i on the states returned by evolve have the period j - i, however many timesteps are run; if no row has two predecessors, from the first state on. In particular every pattern of the Game of Life on a torus ends in a cycle.", "quantifier": "all networks whose neighbours are nodes, all such rules, all initial states, all numbers of timesteps; without memoization", "why_tests_cant": "every test runs single automata for a fixed number of timesteps (at most 1000), and no test looks for repetitions", "anchors": ["netomaton/evolution.py:evolve", "netomaton/rules/activity_rule.py:game_of_life_rule"]}
{"id": "C141", "title": "The continuous generalisations of rules 30 and 90", "statement": "The continuous rules 30 and 90 of the perturbation demo, on a ring of any size: all values after the initial ones lie between 0 and 1 + exp(-10) up to the amount of noise, the noise never takes a value across one half, and from zeros and ones the values stay within 0.002 (0.0125) of elementary rule 30 (90) for ever, as long as the noise is at most 0.0005 (0.00625).", "quantifier": "all ring sizes, all random numbers, all initial values (for the last claim zeros and ones), all timesteps; floats as real numbers; rings of at least three cells", "why_tests_cant": "test_perturbation compares one run of rule 30 (100 timesteps, noise 0.02, one seed) with stored values; the continuous rule 90 has no test", "anchors": ["demos/perturbation_demo/perturbation_demo.py:algebraic_rule_30", "demos/perturbation_demo/perturbation_demo.py:algebraic_rule_90", "demos/perturbation_demo/perturbation_demo.py:perturbation"]}
{"id": "C142", "title": "A reversible rule loses no information, even if it reads the clock", "statement": "Two runs of ReversibleRule(g) with equally many timesteps on the same network that agree in their last two states agree in all states and in the last past condition, for every g that does not look at the past; g may look at the timestep, as the perturbed reversible rule 90 of the demo does.", "quantifier": "all such g (which may raise), all networks whose neighbours are nodes, all initial and past conditions, all numbers of timesteps >= 2; without memoization", "why_tests_cant": "test_perturbation_reversible runs the rule of the demo from one initial state; a test cannot compare all pairs of initial states", "anchors": ["netomaton/reversible_rule.py:ReversibleRule.__call__", "netomaton/evolution.py:evolve", "demos/perturbation_demo/perturbation_reversible_demo.py:perturbed_rule"]}
{"id": "C143", "title": "Hypergraph rewriting: growth and connectedness", "statement": "If all symbols of the left-hand side of a rule occur on its right-hand side, a step of the Wolfram model in which the rule is applied m times adds m times the difference of the numbers of relations, and m times as many nodes as there are symbols only on the right-hand side; if moreover the right-hand side hangs together, so does every hypergraph that arises from one that hangs together. The hypergraph of the demo (wm1167) grows by exactly one relation and one node in every timestep, for ever: at timestep t its network has the nodes 1, ..., t + 1, 2t + 4 edges, and hangs together.", "quantifier": "all rules, configurations and numbers of applications; for the demo all timesteps", "why_tests_cant": "the tests of the model run other rules for at most 4 timesteps, and no test runs the rule of the demo or looks at connectedness", "anchors": ["netomaton/wolfram_physics_model.py:WolframPhysicsModel.topology_rule", "netomaton/wolfram_physics_model.py:WolframPhysicsModel._init_network_and_conditions", "demos/wolfram_physics/wolfram_physics_demo.py:rules"]}
{"id": "C144", "title": "Traffic jams dissolve, and two rules in succession classify densities", "statement": "With elementary rule 184 on a ring of n cells, from state number (n-2)/2 on the row never has both two neighbouring ones and two neighbouring zeros; if at most half of the cells are ones, every one then moves one cell to the right per timestep, and if at least half are, the row moves to the left; on even rings no smaller number of states will do. Starting rule 232 from such a state, from its state number (n-1)/2 on all cells show the majority of the initial row, although no single rule classifies densities (C121); without a majority there is never a decision.", "quantifier": "all n >= 3, all initial rows of zeros and ones, all numbers of timesteps, with and without memoization", "why_tests_cant": "rules 184 and 232 are not run by any test, and the density tests compare one run each with stored values; a test cannot run all rows of all sizes", "anchors": ["netomaton/rules/activity_rule.py:nks_ca_rule", "netomaton/topology/networks.py:cellular_automaton", "netomaton/evolution.py:evolve"]}
{"id": "C145", "title": "The substitution demos with keys of two and three symbols", "statement": "A system whose rules have a replacement for every key over an alphabet that the replacements do not leave never raises, and its rows are the rewritten words. The words of demos 3 and 6 have a closed form (a block 112 is added every second timestep); those of demo 4 have a right end of period five, and 1s and 3s to its left, whose number is given exactly; those of demo 5 start, and from the second on end, with 12; those of demo 7 have a left end of period four. None of them dies out.", "quantifier": "all numbers of timesteps", "why_tests_cant": "test_substitution_system compares runs of 13 (demo 3), 101 (demos 4 and 5) and 5 (demo 7) timesteps with stored values; test_substitution_demo6 tests another system than demo 6", "anchors": ["netomaton/substitution_system.py:SubstitutionSystem.activity_rule", "demos/substitution_systems/substitution_system_demo3.py", "demos/substitution_systems/substitution_system_demo4.py", "demos/substitution_systems/substitution_system_demo5.py", "demos/substitution_systems/substitution_system_demo6.py", "demos/substitution_systems/substitution_system_demo7.py"]}
{"id": "C146", "title": "The two kinds of Turing machines agree, and what the machine of the first demos does", "statement": "For a rule table with the directions left, stay and right, a tape and a start of the head, a HeadCentricTuringMachine (max_timesteps = T, no terminating state) and a TapeCentricTuringMachine (T timesteps) either both raise, or the tape history of the one is the sequence of states of the other and their head states and positions agree. The machine of demos 1 and 2, started in state up on a blank tape, has the blank tape again after every eight steps, with its head two cells further to the right, whatever the number of cells.", "quantifier": "all tables with directions in {LEFT, RIGHT, STAY}, all tapes of at least three cells, all starts of the head on the tape, all T >= 1; for the demo machine all n >= 3, all start positions and all T", "why_tests_cant": "test_turing_machine compares six runs (three machines, each of both kinds, on one tape) with stored values; the two kinds are not compared with each other", "anchors": ["netomaton/turing_machine.py:HeadCentricTuringMachine.activity_rule", "netomaton/turing_machine.py:TapeCentricTuringMachine.activity_rule", "demos/turing_machine/turing_machine_demo1.py", "demos/turing_machine/turing_machine_demo2.py"]}
{"id": "C147", "title": "Automata with the rule tables of Langton, from the random table to the trajectory", "statement": "With a complete table of at most ten states, a ring of cells that starts with these states evolves without error into the automaton that looks its windows up in the table, and keeps to the states. The tables of random_rule_table and all tables that table_walk_through makes of them are complete. With strong quiescence a cell is reached by what differs from its background no faster than r cells per timestep, for every state; with isotropy the mirror image of a row has the mirror image of its evolution. With a state from ten on in the row the run raises.", "quantifier": "all n >= 3, radii r with 2r+1 <= n, complete tables, initial rows, outcomes of the random numbers, sequences of walks, numbers of timesteps, with and without memoization; the failure from ten states on: more than one timestep, default update order, without memoization", "why_tests_cant": "test_rule_table runs one seeded table, test_rule_table_walkthrough one seeded walk through three tables, and both compare with stored rows; mirror symmetry, backgrounds and tables of more than four states are not tested", "anchors": ["netomaton/rule_tables.py:table_rule", "netomaton/rule_tables.py:random_rule_table", "netomaton/rule_tables.py:table_walk_through", "netomaton/topology/networks.py:cellular_automaton", "netomaton/evolution.py:evolve", "demos/langtons_lambda/rule_table_demo.py", "demos/langtons_lambda/rule_table_walkthrough_demo.py"]}
{"id": "C148", "title": "Totalistic automata end to end", "statement": "With totalistic_ca(k, rule) on a ring of cells with states 0..k-1, evolve returns the automaton whose new states are the digits of the rule number that the sums of the windows choose, and the cells keep to the k states. Mirrored rows have mirrored evolutions about every axis, and if the last digit of the rule number is 0 what is not 0 spreads by at most r cells per timestep. The demo (rule 777, three colours) is symmetric about its seed in every state and zero outside the light cone.", "quantifier": "all n >= 3, radii r with 2r+1 <= n, 2 <= k <= 36, rule numbers below k^((2r+1)(k-1)+1), initial rows, numbers of timesteps, with and without memoization", "why_tests_cant": "the one-dimensional tests compare rules 777 and 107396 with stored runs of radius 1 from a simple and a random row; other radii, rule numbers and rows are not tested in one dimension", "anchors": ["netomaton/rules/activity_rule.py:totalistic_ca", "netomaton/topology/networks.py:cellular_automaton", "netomaton/evolution.py:evolve", "demos/totalistic_ca/totalistic_ca_demo.py"]}
{"id": "C149", "title": "Reversible elementary automata keep symmetries, and the two demos of rule 122 are each other's reverse", "statement": "With ReversibleRule(nks_ca_rule(R)), mirrored past and initial conditions have mirrored evolutions if R is its own mirror image, sums modulo 2 have the sums of the evolutions if R is additive, and zeros spread away no faster than one cell per timestep if R is even. The conditions given in rule122R_reverse_demo.py are exactly the states 1000 and 1001 of the evolution of rule122R_entropy_demo.py, so that it shows that evolution backwards and ends with the ordered row twice; all its rows are symmetric.", "quantifier": "all n >= 3, all R below 256 of the kinds named, all binary conditions, all numbers of timesteps (the demos: their 1000 and 1002 timesteps)", "why_tests_cant": "test_reversible_rule compares one run of rule 150R, from one simple row, with stored values; rule 122R is not run by any test, and the property relates different runs", "anchors": ["netomaton/reversible_rule.py:ReversibleRule", "netomaton/rules/activity_rule.py:nks_ca_rule", "demos/reversible_ca/rule122R_entropy_demo.py", "demos/reversible_ca/rule122R_reverse_demo.py", "demos/reversible_ca/reversible_ca_demo.py"]}
{"id": "C150", "title": "What the averages over the nodes say about a trajectory", "statement": "If every state is written with one character of its own, average_node_entropy is the mean of the entropies of what the nodes do over time: it is 0 exactly if nothing ever changes, at most log2 k with k states, and does not depend on the order of the timesteps. average_mutual_information is the mean of the mutual informations between what a node does and what it does d timesteps later: it is not negative, at most the average node entropy of the timesteps that have a successor (or a predecessor) at that distance, equal to it if the trajectory repeats itself every d timesteps, and the same for the trajectory run backwards. For runs of elementary automata both are between 0 and 1; the value in the demo of rule 30 is 0 for exactly three initial rows.", "quantifier": "all non-empty lists of rows of equal positive length over all types of states, all distances between 0 and the number of nodes (for the bounds also below the number of timesteps); all runs of elementary automata on n >= 3 cells", "why_tests_cant": "test_analysis compares five values for one stored run and one table of three nodes, test_langtons_lambda eight more for seeded runs; when the value is 0, the bounds, and invariance under reordering relate all inputs to each other", "anchors": ["netomaton/analysis.py:average_node_entropy", "netomaton/analysis.py:average_mutual_information", "netomaton/utils.py:get_activities_over_time_as_list", "demos/langtons_lambda/average_node_entropy_demo.py", "demos/langtons_lambda/average_mutual_information_demo.py"]}
{"id": "C151", "title": "How far apart the nodes of the regular networks are", "statement": "In the network of cellular_automaton(n, r) a cell can be reached from another along at most t edges exactly if it is at most t*r cells away around the ring; with Moore neighbourhoods of radius r on a torus, exactly if it is at most t*r rows and t*r columns away; with von Neumann neighbourhoods, exactly if the rows and columns together are at most t*r. All cells can be reached along at most t edges exactly if n <= 2tr+1, if rows and columns are at most 2tr+1, or if half the rows plus half the columns (rounded down) are at most tr. With Hex neighbourhoods of radius 2 a cell is linked to cells that two steps of radius 1 do not reach.", "quantifier": "all n >= 3 and radii r <= n, all tori of at least 9 cells and all radii, all pairs of cells, all t, ordered or not", "why_tests_cant": "the tests compare matrices of a few small sizes with stored ones; paths through the network, and their lengths for all sizes, are not tested", "anchors": ["netomaton/topology/adjacency.py:cellular_automaton", "netomaton/topology/adjacency.py:cellular_automaton2d", "netomaton/topology/networks.py:cellular_automaton", "netomaton/topology/networks.py:cellular_automaton2d", "netomaton/topology/networks.py:from_adjacency_matrix"]}
{"id": "C152", "title": "Edges and diagonals of the pattern that an elementary cellular automaton grows", "statement": "Let the number of the rule be even and let all cells but w neighbouring ones be 0 in the beginning. In state t, all cells more than t away from these are 0. If the first of them is 1, the cell t places to the left of it is, in all states from number 1 on, the bit of the rule for the neighbourhood 001; likewise on the right with 100. The cells k places inside either edge repeat with period 2^k from state 2^k on. From a single cell, rule 90 shows the binomial coefficients modulo 2 with zeros in between and rule 60 shows them side by side. In elementary_ca_demo.py (rule 30) cells 100-t and 100+t are 1 and all outside are 0 in each of the 100 states.", "quantifier": "all even rule numbers, all ring sizes, all patterns and positions of them (also across the end of the row), all k, all states until the edges meet on the other side of the ring (w+2t <= n; for nothing outside: all states); memoized or not", "why_tests_cant": "the tests that run these rules do so from stored initial conditions on rings of one size and compare the arrays; that each diagonal repeats is a statement about every pattern and every number of timesteps", "anchors": ["netomaton/rules/activity_rule.py:nks_ca_rule", "netomaton/topology/networks.py:cellular_automaton", "netomaton/evolution.py:evolve", "demos/elementary_ca/elementary_ca_demo.py"]}
{"id": "C153", "title": "Whether boids come back at the margins", "statement": "With the rules of the flocking demo, a boid whose velocity is not exactly at right angles to a margin does not stay outside that margin for ever while it sees no other boid and is between the two other margins. A boid that flies exactly at right angles to the margin is never turned when the turn factor is less than the least speed, as in the demo (2 and 3): the first boid, which sees nobody, then moves at least the least speed further out in every timestep, and within the limits of the initial conditions of the demo it is outside the plot from state 164 on.", "quantifier": "all parameters with 0 < turn factor and 0 < least speed <= greatest speed, all initial conditions, all boids and all times from 1 on, square roots right up to any factor; for running away: square roots of squares exact, all initial conditions with the first boid between the margins and flying to the right, all numbers of boids and timesteps", "why_tests_cant": "flocking_demo.py has no test; one seed of random initial conditions never flies exactly at right angles to a margin, and a run of 500 timesteps cannot tell never from not yet", "anchors": ["demos/flocking/flocking_demo.py", "netomaton/evolution.py:evolve"]}
{"id": "C154", "title": "What equality of networks compares", "statement": "Two networks are equal (==) exactly when they have the same nodes and node attributes, the same parallel edges by age between any two nodes, and for every node the same targets of the edges leaving it by age; the order of the nodes, the order of the neighbours and the rotation system play no role. Equality is an equivalence relation; equal networks answer the queries for nodes, degrees and edges alike, react to the same further calls with the same outcomes and stay equal. Two edges leaving different nodes may be added in either order, whereas edges leaving one node for two different nodes never may. Adding and removing a node or an edge gives the network back. It is false that equal networks evolve alike.", "quantifier": "all pairs of networks reached by arbitrary histories of public calls with exceptions caught, all labels and attributes with decidable equality, keyword arguments with different names", "why_tests_cant": "test_equals compares two networks of two nodes and other tests compare expected networks built in the same order; none compares networks with the same edges added in different orders, or equal networks by their further behaviour", "anchors": ["netomaton/state.py:Network.__eq__", "netomaton/state.py:Network._add_outgoing", "netomaton/evolution.py:_get_neighbourhood_map"]}
{"id": "C155", "title": "The colony of the fungal growth model", "statement": "In a run of the fungal growth model whose absorption rate and resource layer are not negative, no agent ever dies and no edge is ever lost or turned round; both ends of every edge are alive; an agent comes to life exactly when a living neighbour takes the link to it, so life spreads by at most one link at each timestep; the link between two living agents carries exactly one edge at the next timestep; and once all agents are alive the network is complete one timestep later and never changes again. If all random numbers are less than 1, a living agent with three edges takes its fourth link at the next timestep.", "quantifier": "all lattices with at most four links at each node, initial conditions (also negative), resource layers and rates that are not negative, random outcomes, orders of the links, numbers of timesteps", "why_tests_cant": "the two tests of the model compare one seeded run of 10 timesteps on a 10x10 lattice with recorded results; claims about never dying and about every random outcome are outside of what a recorded run can show", "anchors": ["netomaton/fungal_growth_model.py:FungalGrowthModel.topology_rule", "netomaton/fungal_growth_model.py:FungalGrowthModel.activity_rule", "netomaton/evolution.py:evolve"]}
{"id": "C156", "title": "Where the populations of the logistic map demos go", "statement": "In exact arithmetic, and starting with 1/2 as in the three demos: with a growth rate r of at most 1 the population after t timesteps is at most 1/(t+1); with 1 < r <= 3 it tends to 1 - 1/r; with 3 < r < 4 it does not tend to anything; with r = 4 it is 0 from the second timestep on, so the last column of the bifurcation plot and the last node of the Poincare plot show a dead population. The first two hold for every start between 0 and 1.", "quantifier": "all rational growth rates from 0 to 4, all lists of rates, every number of timesteps; all starts between 0 and 1 for rates up to 3; calls without memoization", "why_tests_cant": "test_logistic_map.py compares one run of one node with rate 2.5 and 20 timesteps with recorded numbers; limits, and the absence of a limit, are not visible in finitely many timesteps, and the two demos with plots have no test", "anchors": ["demos/logistic_map/logistic_map_demo.py:activity_rule", "demos/logistic_map/logistic_map_demo2.py:activity_rule", "demos/logistic_map/logistic_map_demo3.py:activity_rule", "netomaton/evolution.py:evolve"]}
{"id": "C157", "title": "Two-dimensional automata treat all directions alike", "statement": "On the tori of cellular_automaton2d with the Moore or the von Neumann neighbourhood of radius 1, and for a rule that depends on the activity of the cell and on those of its neighbours in whatever order (the Game of Life, Wireworld, two-colour totalistic rules), turning, mirroring, transposing or shifting the initial conditions turns, mirrors, transposes or shifts the whole evolution; so initial conditions with one of these symmetries keep it for ever.", "quantifier": "all tori with at least 3 rows and 3 columns (if rows and columns change places, the second torus is cols x rows), all motions of the grid, all such rules, all initial conditions the rule accepts, every number of timesteps", "why_tests_cant": "the tests compare single runs from single initial conditions with recorded states; no test turns, mirrors or shifts initial conditions, and a topology that favours one direction would only show for patterns that meet that direction", "anchors": ["netomaton/topology/networks.py:cellular_automaton2d", "netomaton/topology/adjacency.py:cellular_automaton2d", "netomaton/rules/activity_rule.py:game_of_life_rule", "netomaton/rules/activity_rule.py:totalistic_ca", "netomaton/evolution.py:evolve"]}
{"id": "C158", "title": "Gardens of Eden", "statement": "On any network, and for any rule that depends on the node, its state and the states of its neighbours and that keeps to finitely many states, some state of the network has no predecessor if and only if two different states of the network have the same successor. A state without predecessor is shown by evolve as initial conditions only. Such states exist for the Game of Life on every torus from 3 x 3 on, and for Wireworld on every network with a node.", "quantifier": "all networks whose neighbours are nodes, all such rules, all finite lists of values; for the Game of Life all tori from 3 x 3 on and all patterns; every number of timesteps; calls without memoization, for the Game of Life also with it", "why_tests_cant": "the claim is about all states of a network, of which there are 2^3600 on the torus of the demos; a test can only compare runs from given initial conditions", "anchors": ["netomaton/evolution.py:evolve", "netomaton/rules/activity_rule.py:game_of_life_rule", "netomaton/rules/activity_rule.py:wireworld_rule"]}
{"id": "C159", "title": "Coverings: periodic states evolve as on the small network", "statement": "If every node of a network lies over a node of a second network so that its neighbours lie over the neighbours of that node (in order, or in any order for rules that do not look at the order), and every node starts with the state of the node it lies over, then it has the state of that node for ever. So renaming or permuting nodes consistently changes nothing but the names; on a ring or torus, initial conditions that repeat evolve as on the smaller ring or torus; and on a network whose nodes all have the same number of neighbours equal states stay equal.", "quantifier": "all pairs of networks whose neighbours are nodes, all such maps between their nodes, all rules that depend only on the state of the node and on those of its neighbours; rings of n and m n cells with n >= 3 and n >= 2 r + 1; tori with sides rows, cols >= 3 and multiples of them; every number of timesteps; calls without memoization, on tori also with it", "why_tests_cant": "no test compares the evolution on two networks of different sizes or with different labels; the claim relates pairs of runs", "anchors": ["netomaton/evolution.py:evolve", "netomaton/topology/networks.py:cellular_automaton", "netomaton/topology/networks.py:cellular_automaton2d"]}
{"id": "C160", "title": "Order-preserving rules: ordered evolutions, and when they come to rest", "statement": "If the new state of a node never gets smaller when the states of the node and of its neighbours get greater, then the evolution from the greater of two initial conditions is the greater one at every timestep; and an evolution whose first step lets no node go down (or none go up) never does, and is at rest after at most n K steps (n nodes, states 0 to K). Of the 256 elementary rules exactly 20 have this property, whatever the size of the ring.", "quantifier": "all networks whose neighbours are nodes, all K, all such rules of the node, its state and the states of its neighbours, all pairs of ordered initial conditions, every number of timesteps; all 256 elementary rules on rings of at least three cells; calls without memoization", "why_tests_cant": "relates pairs of runs and unboundedly many timesteps on networks of every size; no test compares two evolutions from ordered initial conditions", "anchors": ["netomaton/evolution.py:evolve", "netomaton/rules/activity_rule.py:nks_ca_rule", "netomaton/topology/networks.py:cellular_automaton"]}
{"id": "C161", "title": "The Collatz demo with a fixed number of timesteps, and what the Collatz demos draw", "statement": "With a fixed number T of timesteps the trajectory consists of the first T numbers of the Collatz sequence; once at 1 it goes round 1, 4, 2 for ever. Both demos print these numbers and draw an image with one row per number, which shows the binary digits of the number, padded on the left with zeros to the length of the greatest number.", "quantifier": "all starting numbers (positive ones for the image), every number of timesteps", "why_tests_cant": "tests/test_collatz_conjecture.py checks one evolution and tests/test_utils.py one list of three numbers; the claim is about all of them and about the composition of evolve, get_activities_over_time_as_list and binarize_for_plotting", "anchors": ["demos/collatz_conjecture/collatz_conjecture_demo2.py:activity_rule", "netomaton/evolution.py:evolve", "netomaton/utils.py:binarize_for_plotting"]}
{"id": "C162", "title": "The colours of hexagons grow with the values, within the given limits", "statement": "plot_hex_grid and animate_hex colour the hexagons by value: the colour grows with the value, from the beginning of the colour map at vmin to its end at vmax; where vmin or vmax is not given, the smallest or the greatest value takes its place.", "quantifier": "all trajectories of numbers, all shapes with at least one cell, all slices, all vmin and vmax, every frame", "why_tests_cant": "tests/ contains no test of hexplot.py; the claim is about all values and limits", "anchors": ["netomaton/hexplot.py:_get_scaled_colormap", "netomaton/hexplot.py:plot_hex_grid", "netomaton/hexplot.py:animate_hex"]}
{"id": "C163", "title": "Parts without links from outside evolve on their own, and feed-forward networks forget", "statement": "The states of a set of nodes into which no link leads from outside depend on nothing outside the set: neither on the links, the initial conditions nor the rule there. In a feed-forward network, with a rule that does not look at the state of the node itself, every node has a state that does not depend on the initial conditions from the timestep after its rank on, and these are the only states at rest. On networks with a cycle there are rules that remember the initial conditions for ever.", "quantifier": "all networks whose neighbours are nodes, all sets of nodes closed under neighbours, all rules of the node, its state and the states of its neighbours, any states, every number of timesteps; calls without memoization", "why_tests_cant": "relates pairs of runs on different networks, with all initial conditions and any number of timesteps; no test evolves two networks that agree on a part only", "anchors": ["netomaton/evolution.py:evolve", "netomaton/evolution.py:evolve_activities"]}
{"id": "C164", "title": "With weighted sums, networks compute powers of their matrix and count walks", "statement": "On the network that from_adjacency_matrix makes of a square matrix of integers in which every node has a link, with the sum over the neighbours of weight times state (the loop of the Hopfield rule, without the threshold) as rule, the states after t steps are the initial states times the power t of the matrix: incoming links are used, in the direction from row to column. For a matrix of zeros and ones, started with a one at a single node, the state of a node is the number of walks of t steps from that node.", "quantifier": "all sizes, all matrices of integers without isolated nodes, all initial states, every number of timesteps; calls without memoization", "why_tests_cant": "ranges over all matrices, powers and initial states; the unit tests of the Hopfield net use symmetric matrices only, on which rows and columns cannot be told apart", "anchors": ["netomaton/hopfield_net.py:HopfieldNet", "netomaton/topology/networks.py:from_adjacency_matrix", "netomaton/evolution.py:evolve"]}
{"id": "C165", "title": "The perceptron demo names the first greatest output and shows the image it read", "statement": "The image is read row by row into the nodes 0, 1, 2, ...: the pixel in row a and column b of the file is the initial activity of node a * columns + b, there are no other nodes, and the picture shown at the end is the one in the file; a wrong number of pixels or a shape with another number of cells raises. The softmax of a list of numbers consists of positive numbers with sum 1 in the same order, so that the class in the title is the position of the first greatest entry of M3 relu(M2 relu(M1 x)).", "quantifier": "all images with rows of equal length, all matrices of matching sizes (784 nodes and 10 classes in the demo), all lists of real numbers", "why_tests_cant": "ranges over all images, weights and output values, and the values of exp and log cannot be computed exactly; no unit test covers this demo", "anchors": ["demos/mlp/mlp_demo.py:read_image_activities", "demos/mlp/mlp_demo.py:softmax"]}
{"id": "C166", "title": "Which exception bad arguments raise", "statement": "The one- and two-dimensional adjacency functions, table and totalistic rules, ncr, init_simple, init_simple2d, init_random, the patches of plot_hex_grid, plot_network and HeadCentricTuringMachine raise an exception exactly for the stated bad arguments, and the stated one, in the order in which the code checks. plot_activities with a shape of one number always raises (AssertionError or IndexError) for at least one row; plot_grid_multiple with fewer titles than drawable automata raises IndexError; to_configurations raises at the first state without network if the networks before it are configurations.", "quantifier": "all sizes, radii, strings, tables, contexts, rows, slices and layouts of the modelled types; for table rules the activities are digits 0 to 9, for totalistic rules colours below k with 2 <= k <= 36; for init_random not k <= 0 without randomized sites", "why_tests_cant": "ranges over all arguments and all combinations of wrong arguments; the two tests of exceptions in the suite (test_network.py, test_ctrbl_rule.py) concern other functions", "anchors": ["netomaton/topology/adjacency.py:cellular_automaton", "netomaton/topology/adjacency.py:cellular_automaton2d", "netomaton/utils.py:ncr", "netomaton/evolution.py:init_random", "netomaton/evolution.py:init_simple2d", "netomaton/rule_tables.py:table_rule"]}
{"id": "C167", "title": "The rewiring probability of the dynamic particle swarm", "statement": "p_decay is initial_p before timestep timesteps_drop - 1, is multiplied by drop every timesteps_drop timesteps and constant in between, never grows, stays between 0 and initial_p, and tends to 0 if drop < 1; in the demo it is 0.9 to the power (1 + t) // 10 + 1. Whatever is drawn, every network of the demo (20 nodes, k = 4) that is returned has 80 of the 380 edges of a complete network and a pair of nodes without link, contrary to the comment that the first one is essentially fully connected.", "quantifier": "all timesteps, initial_p >= 0, drop in [0, 1], positive natural timesteps_drop (exact arithmetic); all outcomes of the random generator for the networks", "why_tests_cant": "no test runs this demo; the limit and the order are about all timesteps, the networks about all random outcomes", "anchors": ["demos/optimizing_particle_swarms/pso_dynamic_demo.py:p_decay", "demos/optimizing_particle_swarms/pso_dynamic_demo.py:topology_rule", "netomaton/topology/networks.py:watts_strogatz_graph"]}
