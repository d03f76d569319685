# Formal model of semiwaker/TTGraph in Lean 4

## What is modelled

| Rust | Lean module | how |
|---|---|---|
| `src/id_distributer.rs` | `Verif/Model/Ids.lean` | counter as `Nat`; a second 64-bit version (`BitVec 64`) with wrap-around and an interleaving semantics of `fetch_add` |
| `ordermap::{OrderMap, OrderSet}` (dependency) | `Verif/Model/OrderMap.lean` | association list with distinct keys, in insertion order; `swap_remove` with its real effect on the order |
| `std::collections::BTreeMap` (maps of checks) | `Verif/Model/Sorted.lean` | association list in the order of the keys |
| `ttgraph_macros/src/{lib,typed_node,group,bidirectional,link_check,node_enum}.rs` | `Verif/Model/Schema.lean` | declarations as data; the tables that the macros generate are computed from them |
| generated `TypedNode`/`NodeEnum` code | `Verif/Model/Node.lean` | a node value is a variant name, a list of link fields (direct / set / vec) and a list of data fields; every generated method is a function |
| generated `get_bidiretional_links` | `Verif/Model/Bidir.lean` | function by function |
| generated static tables (`link_names`, `link_types`, ..., `NodeDiscriminant`) | `Verif/Model/Reflect.lean` | the loops of the macros, placeholder for structs without links included |
| generated arena, `src/cate_arena.rs` | `Verif/Model/Arena.lean`, `ArenaApi.lean` | dispatcher map and one container per variant, iterator state machine included |
| `src/typed_graph/transaction.rs` | `Verif/Model/Trans.lean` | record with the eight Rust fields |
| `src/typed_graph.rs` | `Verif/Model/Graph.lean`, `Check.lean`, `Switch.lean`, `SwitchDraws.lean` | function by function |
| `src/typed_graph/serialize.rs` | `Verif/Model/Serialize.lean` | without the byte format |
| `src/typed_graph/macros.rs` | `Verif/Model/Macros.lean` | closures built by the macros |
| `src/typed_graph/{display,debug}.rs` | `Verif/Model/Format.lean` | texts as lists of characters |
| programs that use the API | `Verif/Model/World.lean` | any number of contexts, graphs and transactions; one step per API call |
| closures that change what they have captured | `Verif/Model/Effects.lean` | the functions that call closures, once more, with the state of the rest of the program |
| check functions that change what they have captured | `Verif/Model/CheckEffects.lean` | `check_change` and `commit_checked` once more, with the state of the rest of the program |
| reading of declarations: the parsers of the macros, field types, attributes | `Verif/Model/Parse.lean` | token by token; `syn`'s own part (items, fields, paths) is given |
| which declarations compile (checks of the macros, names in the generated code) | `Verif/Model/Compile.lean` | the names that are looked up, and where |
| the tables of opposites and link types with the names in camel case | `Verif/Model/Spelling.lean` | the arms of the generated matches, in their order |
| commit, `switch_context` and deserialization without the feature `debug` | `Verif/Model/Feature.lean` | the recorder of link changes does nothing |
| counters that wrap around | `Verif/Model/Wrap.lean` | the functions that draw indices, once more, for a `usize` with `W` values |
| what a caught panic of `commit` leaves behind | `Verif/Model/Unwind.lean` | the graph at the point of the panic |
| what a caught panic of a method of a transaction leaves behind | `Verif/Model/TransLeft.lean` | the transaction at the point of the panic |

Every Rust function becomes a total Lean function. Every panic (explicit `panic!`, `assert!`, `debug_assert!`,
`unwrap`/`expect` on `None`, indexing out of range) becomes a value of the type `Panic`; functions that
can panic return `Except Panic _`. The three `while` loops of `redirect_links_vec` run with fuel; running out of fuel is
the separate outcome `Panic.diverge`, which is proved unreachable.

### Not modelled

* The feature `debug` is on, except in `Feature.lean`. (Without it the crate does not compile: `use check::*` names a module that is cfg'd out; C68 treats the
  conditional code as if this line were conditional, too.)
  `debug_assert!` is controlled by a parameter `dbg : Bool`, so both build profiles are covered.
* The parser of Rust inside `syn` (items, types, visibility, generics), hygiene and error messages of the macros; what the macros read themselves is in
  `Parse.lean`, which declarations are rejected in `Compile.lean`. Name mangling
  (`upper_camel`, `snake_case`) is the identity outside `Compile.lean` and `Spelling.lean`: C82 shows that the tables are those of the declaration written with
  the names of the structs, unless `bidirectional!` mentions one link in two spellings with the same camel case; programs with such declarations are not covered.
* The byte format of serde; `Debug` of contexts; `Debug` of transactions (transaction.rs:560-580 asks for `Debug` of the arena,
  which the generated arenas do not implement unless the program adds it); how nodes and sources are formatted (a parameter in C63).
* Memory: aliasing and ownership are those of safe Rust, so a graph is a value. Memory exhaustion is not modelled.
  `NodeIndex` is a natural number in the graph model; the wrap-around is treated in `Ids.lean` for single draws and in `Wrap.lean` for programs (C87).
* User data fields are opaque values with a type tag; closures given to `mutate`/`update` are arbitrary functions
  `Node → Except Panic Node`, check functions return `Ok`, `Err` or panic. Closures that have other effects are treated in `Effects.lean`: C64
  shows that all properties of programs carry over to them, and C77 that they carry over to closures that call the API of this crate on other objects.
  Effects of check functions are treated in `CheckEffects.lean`: C78 says which calls a `commit_checked` makes, and that programs reach no new states.
* The iteration order of a user's set field (`HashSet`, `BTreeSet`, `OrderSet`, ...) is unknown: all theorems hold for
  every implementation of insert and remove that satisfies the membership laws (class `SetImpl`).
* `arena.rs` is dead code (not part of the crate).

### Assumptions of the program model (`World.lean`)

* Every API call is one atomic step. Threads share nothing but the counter of a context, which is read and advanced by single
  `fetch_add`s; the interleaving of these is treated separately in `Ids.lean` (C01). `extend` and `switch_context`, which
  advance the counter several times, are atomic in the program model; an interrupted `extend` is a sequence of `insert`s (`C84_extend`), and
  programs in which a `switch_context` is interrupted are a separate, larger notion (`Spec/Interleaved.lean`, C84; the call itself C62).
* A call that panics drops the objects it owns or has borrowed mutably. The exception is `commit`: a program may catch its panic
  and go on with the graph that is left (call `commitCaught`, `commitLeft` in `Unwind.lean`, C38, C49). If the panic comes from
  within a closure or from its result, the program model drops the graph; `commitWreck` shows what would be left. What
  the panicking methods of a transaction leave is modelled apart from programs (`TOp.left`, C51); C83 shows that programs that catch these panics, or those of `merge`, are
  programs of the model again, except after a panic in an `update` closure. `switch_context` and `deserialize_graph` own their
  arguments, so nothing is left of them. Theorems that need it exclude caught panics of commits by `NoCatch`.
* `Reaches S dbg R w`: `w` is reached from the empty program by calls that are `Allowed` and satisfy the restriction `R`.
  `Allowed` (Spec/History.lean) contains what Rust's type checker enforces (node values fit their struct, handles exist) and four
  further conditions: `fill_back_untyped` is used on an index of `alloc_untyped` of the same transaction, nothing is redirected
  *from* the empty index, a transaction is committed to a graph of its own context, a file that is read has no node under the empty
  index. Properties about programs that break one of these conditions are stated separately (C05, C15, C36, C69).
* `SteadyBidir S t v`: no `Vec` field that a `bidirectional!` line names holds a node twice while the operations of `t` are performed on `v`. It is
  a hypothesis of the theorems about the exact links that bidirectional completion adds and removes; without it they are false (C73). `SteadyBidirCalls`
  says it of every commit of a program.
* `NoVec S`: no `bidirectional!` line names a `Vec` field (README.md:240 and src/lib.rs:462 require this; the macros do not check it). It implies
  `SteadyBidir`; no property assumes it, only examples use it.
* `Context::new` draws distinct non-zero ids (random UUIDs).

## Trusted base

* Lean's kernel, and the axioms `propext`, `Classical.choice`, `Quot.sound`; no theorem depends on others (`vcheck` prints them, and
  `#print axioms` confirms it per theorem). No `sorry`, no `native_decide`, no axioms of our own. `decide +kernel` is used for concrete programs;
  it is checked by the kernel.
* The hand translation of the Rust code into `Verif/Model` (each definition cites the lines it models) and the assumptions above.
  `Verif/Conform/*` transcribes every test of `/repo/tests` and every example of the documentation as a program of the model and checks by evaluation that
  the model gives the results that the test asserts (panics included). These are tests of the translation, not proofs, and no claim rests on them.
* The contract of the crate `ordermap` and of the standard sets as stated in `Model/OrderMap.lean` and in the class `SetImpl`.
* All files are compiled with `autoImplicit false`.

## Layout

* `Verif/Model/*` the model. `Verif/Spec/*` the vocabulary in which properties are stated (small, no reference to
  the model's helpers beyond "the node at index i" and "field f of node x holds y"): `View` and `Links` (what a graph holds), `Commit` (the documented
  effect of a commit as a relation), `History` (programs), `Pending` and `Protocol` (what a transaction has pending, read off its calls), `Valid`
  (transactions that must succeed), `Worlds` (several graphs), and others, listed below.
* `Verif/Lemmas/*` proofs. `Verif/Props/*` the property theorems, named `Cnn_...`, each with an `example` that meets its
  hypotheses. Where the code does not have the property: `Cnn_..._fails` proves the negation on a concrete history (in the namespace `Demo`)
  and `Cnn_..._partial` the part that holds.
* `Verif/Conform/*` the tests and documentation examples of the repository, run on the model.
* `Verif/Demo/*` helpers to run concrete programs; used only by examples and counterexamples.
* `seeded/LOG.jsonl` wrong programs tried against the theorems. Each entry names the edited definition, the edit, the claim it breaks,
  the first lemmas that fail and the property theorems that rest on them. Besides rebuilding, every edit was run against the unedited model on 600
  random programs, to see that it changes observable behaviour (a property theorem that determines the result is then false of the edited program).

### Specification modules

| module | vocabulary |
|---|---|
| `Spec/Arenas.lean` | A generated arena used on its own |
| `Spec/Asked.lean` | The calls of check functions |
| `Spec/Catching.lean` | Programs that catch panics |
| `Spec/Checks.lean` | Registering checks |
| `Spec/Commit.lean` | Specification of `commit` |
| `Spec/Compile.lean` | Names in declarations that mean something |
| `Spec/Declare.lean` | Declarations that differ in the order in which things are written |
| `Spec/Effects.lean` | Specification of closures with side effects |
| `Spec/Exact.lean` | Operations that can be carried out |
| `Spec/Files.lean` | Files |
| `Spec/Form.lean` | Which graphs there are |
| `Spec/Grammar.lean` | How declarations are written |
| `Spec/Groups.lean` | Specification of group declarations |
| `Spec/History.lean` | Histories |
| `Spec/Independent.lean` | Transactions that do not concern each other |
| `Spec/Intact.lean` | What a program relies on in every world |
| `Spec/Integrity.lean` | Specification vocabulary for integrity |
| `Spec/Interleaved.lean` | Programs in which a `switch_context` takes its time |
| `Spec/Iter.lean` | Walking through an iterator |
| `Spec/Links.lean` | Specification vocabulary for one node |
| `Spec/Machine.lean` | An abstract machine |
| `Spec/Moved.lean` | Putting one graph into another |
| `Spec/Nested.lean` | Specification of closures that call the API |
| `Spec/Net.lean` | The net effect of a transaction |
| `Spec/Order.lean` | The order in which nodes are iterated |
| `Spec/PartThreads.lean` | Parts of a program that have nothing to do with each other, while threads are in the middle of a `switch_context` |
| `Spec/Parts.lean` | Parts of a program that have nothing to do with each other |
| `Spec/Pending.lean` | What a transaction is going to do |
| `Spec/Protocol.lean` | The protocol of `alloc`, `alloc_untyped`, `fill_back` |
| `Spec/Query.lean` | Specification vocabulary for queries on one node |
| `Spec/Reasons.lean` | Why a commit panics |
| `Spec/Regroup.lean` | The same closures in another order |
| `Spec/Rename.lean` | Two executions that differ only in the values of indices |
| `Spec/RenameOrder.lean` | The order of iteration in two executions that differ in the values of indices |
| `Spec/Replace.lean` | A node takes the place of another |
| `Spec/Replay.lean` | Programs that run through |
| `Spec/Report.lean` | The report of `commit_checked` |
| `Spec/Rerun.lean` | Two runs of the same program |
| `Spec/Restore.lean` | A transaction that brings a graph to a given state |
| `Spec/Schedule.lean` | Several threads that build transactions in one context |
| `Spec/Spelling.lean` | Spellings of names |
| `Spec/Split.lean` | Cutting a transaction in two |
| `Spec/Switch.lean` | Specification vocabulary for `switch_context` and for files |
| `Spec/Threads.lean` | Programs with several threads that catch panics |
| `Spec/Types.lean` | Specification of link types |
| `Spec/Undo.lean` | Transactions that only insert or only remove |
| `Spec/Valid.lean` | Transactions that make sense for a graph |
| `Spec/Vec.lean` | Bidirectional links of any kind of field |
| `Spec/View.lean` | Specification vocabulary for graphs |
| `Spec/Worlds.lean` | Specification vocabulary for programs with several objects |
| `Spec/Wrap.lean` | Programs on a machine with a word size |
| `Spec/WrapThreads.lean` | Programs with threads on a machine with a word size |
| `Spec/Wreck.lean` | Commits that stop in the middle of a closure |

## Plan per property

(The final state of each is in MANIFEST.json.)

* **C01** Indices handed out by one context are unique and never empty. Interleaving semantics: threads issue `fetch_add` requests in any order on one 64-bit counter. Induction over the schedule; results are 1..n, n < 2^64.
* **C02** Committing never overwrites an existing node. World model; invariant: indices in every arena are between 1 and the counter, arenas of one context are pairwise disjoint. Corollary for commit.
* **C03** Commit applies its operations in the documented order. Relational spec of the seven phases in `Spec/Commit.lean`; refinement of each phase; composition.
* **C04** Back-link index stays consistent. Invariant `Consistent` preserved by every phase; induction over histories; `check_backlinks` modelled and shown not to panic.
* **C05** Redirecting to or from the empty index. Negation by a concrete history; partial theorem: redirect to empty clears the links.
* **C06** Removing a node clears every link to it. Removal as renaming x to empty in every field; induction over the back-link set.
* **C07** Redirection sends every link to the end of its replacement chain. Loop invariant of the union-find; renaming by the chain's end; order independence as a corollary.
* **C08** Redirect loop detection is exact and terminates. Panic iff the successor relation of the request list has a cycle; fuel argument by pigeonhole.
* **C09** Redirecting one node twice: the first request wins. Corollary of the general renaming theorem for lists with repeated sources.
* **C10** redirect_links spares new nodes, redirect_all_links does not. From the commit refinement: inserted nodes appear unchanged after redirect_links.
* **C11** mutate and update touch exactly their node. From the commit refinement for transactions with only mutate/update, schema without bidirectional links; plus general frame.
* **C12** Commit cannot silently create a dangling link by mutation. Integrity invariant through all phases; panic theorem for unknown targets.
* **C13** Commit succeeds on every valid transaction. Totality: conditions on the phases imply `Except.ok`.
* **C14** alloc/fill_back protocol errors are detected. Case analysis on the arena operation; the occupied/typed cases over all arenas.
* **C15** fill_back_untyped protocol errors are detected. Negation by witness; partial: the panic on the same variant and injectivity under the protocol.
* **C16** Insert then remove inside one transaction cancels out. Equations on transactions, extensional on the arena.
* **C17** Mutating a node inserted in the same transaction equals inserting the mutated node. Equation on pending nodes.
* **C18** iter lists every node exactly once and len counts them. Iterator state machine yields the concatenation of the containers; no duplicates from the arena invariant.
* **C19** iter follows the order of NodeIndex. Negation by witness; partial: order is by variant, then insertion order in absence of removals.
* **C20** iter_type lists exactly the nodes of the variant. Negation by witness (variant-changing update); partial: holds if closures keep the variant, as an invariant of all histories.
* **C21** iter_group lists exactly the nodes of the group. From 18 and the group table.
* **C22** Bidirectional links are symmetric after every commit. Invariant `Symmetric`; exactness of the link-change recorder; set calculation.
* **C23** Bidirectional completion is exact. From exactness of the recorder and the loop invariants of the two loops.
* **C24** Bidirectional conflict panics exactly when a direct field would need two values. Both directions by loop invariants.
* **C25** Bidirectional links with several possible opposites. Negation by witness; partial: every added link has an opposite right after the commit that adds it.
* **C26** Group declarations equal their expansion. The generated table against the expansion of the declarations as a set.
* **C27** Link types hold for every link after commit. Negations (completion, Vec duplicates); partial: links added by the operations of the transaction, except those of `Vec` fields that hold their target twice at some stage of the commit (`Steady`).
* **C28** All link_type! annotations of a field are enforced. Negation by witness; partial: one annotation per name. Exactly, for all declarations: of the annotations of one name, the first in lexicographic order counts (`Permitted`).
* **C29** commit_checked runs link-add checks on every added link. From recorder exactness.
* **C30** commit_checked runs link-remove checks on removed links. Negation by witness.
* **C31** commit_checked runs node checks on changed and new nodes. Negations by witness; partial: nodes with changed links.
* **C32** switch_context is an isomorphism. Negation (index overlap); partial: no overlap between new indices and old indices still to be renamed.
* **C33** Serialize/deserialize round trip. Round trip by induction over the node list.
* **C34** Merging a graph keeps all nodes. From merge semantics in the arena and the commit refinement. That merge and commit return (`C34_returns`) for graphs that are complete in themselves (`Whole`, Spec/Moved.lean) follows from the characterisation of the commits that return (C13).
* **C35** Empty transactions do nothing. Direct computation plus invariant.
* **C36** Transactions of another context are refused. debug profile: proved; release profile: negation; deserialized context: negation.
* **C37** Building or dropping a transaction does not change any graph. World model: frame theorem per step.
* **C38** A commit that panics leaves the graph unchanged. Negation by witness; partial: panics before the first effect (context mismatch, unfilled allocation) leave the graph unchanged.
* **C39** Query by name and group returns the declared links. By name proved; by group: negation for empty Vec slots and partial.
* **C40** A link belongs to exactly its declared groups. Negation for two attributes on one field; partial: at most one attribute per field.
* **C41** data_ref_by_name finds every data field of the right type. Negation for fields whose type is not a path (tuple, array, reference); partial: path types.
* **C42** Calls of different kinds in one transaction commute. Commutation of the transaction-building operations.
* **C43** get_node!, mut_node!, update_node! respect the variant. Case analysis.
* **C44** Link operations on a node change one field only. Field-wise lemmas on node operations.
* **C45** Every method of Transaction has exactly its documented effect on what is pending. A record of pending operations as specification; simulation per call.
* **C46** The index of a removed node never comes back. Invariant "nobody owns i and i is at most the counter", preserved by every call.
* **C47** A commit changes the number of nodes by exactly what it inserts and removes. Counting duplicate-free lists of keys.
* **C48** The build profile does not change results. Induction over programs; the asserts hold for calls that follow the protocol.
* **C49** A graph whose commit panicked is still consistent. Invariant of the half-done commit at every point where it can stop; the graph it leaves is a graph of a program again. Negation by witness for panics in closures, and an exact statement of the graph that such a panic leaves: the nodes and the back-links of the operations before it, with the one node in hand lost (`update`) or holding other links than the ones recorded (`mutate`).
* **C50** The values of indices do not matter. Every step of a commit and every method commutes with a one-to-one renaming of indices; induction on two executions side by side.
* **C51** A transaction method that panics leaves the transaction as it was. A model of what each panicking method has changed when it panics (`TOp.left`); case analysis on the methods.
* **C52** The order of iteration is determined by the calls. The list of indices in each container is followed through every phase of a commit and every method; all but inserting, updating and removing keep it.
* **C53** Registered checks. Induction over the sequence of calls; the maps are lists in the order of the names, so registries with the same functions under the same names are equal.
* **C54** `get_bidiretional_links`. The generated table of names is computed from the declaration and compared with the specification of opposites.
* **C55** Schedules of threads that build transactions. A thread is a function from what its calls have returned to its next call. Two adjacent calls of different threads are exchanged by a permutation that swaps two blocks of indices; the rest of the schedule follows in lockstep, and permutations of the schedule compose. A method call is one step; an `extend` that another thread interrupts is a sequence of `insert`s.
* **C56** A generated arena used on its own. `Built` follows the public calls of `CateArena` next to a map from indices to slots that is updated the obvious way; an induction keeps arena and map in agreement, and each call's outcome is read off the map. `iter_mut` is a loop over the modelled iterator.
* **C57** Reflection describes the declared fields. The loops of the macros that generate the static tables are modelled with the placeholder of structs without links; each table is computed to a map over the link fields in order.
* **C58** A commit returns exactly when its operations can be carried out. The phases are relations between views with their conditions (Spec/Exact); one direction follows the code phase by phase and reads off the conditions, the other runs the code along the given views, equal up to the order of sets. In programs without dangling links, the indices with a back-link entry are exactly those that exist.
* **C59** Transactions on different parts of a graph can be committed in any order. Locality of the specification of commit: every phase, restricted to the footprint of the transaction, is the same phase on the restricted view, and does nothing outside (Lemmas/Independent). So the commit does the same after the other one, and the results agree on both footprints and outside. That the second commit returns: the views that show that it can be carried out on the original graph are glued to the rest of the changed one (Lemmas/Spared), then C58. For any number of transactions: an invariant says that the parts of the committed ones are as each alone would leave them and the rest is untouched (Lemmas/Many). `C59_cross_differ` shows why links to what the other transaction redirects are excluded.
* **C60** `commit_checked` reports exactly the failed checks. The recorded changes are exactly the added and removed links if no `Vec` field holds a node twice in between; induction over the list of checks for the names.
* **C61** Programs behave like a machine without the internal data structures. Forward simulation: every call of the model, on the meaning of its objects, is a step of the machine in `Spec/Machine.lean`; induction over programs. The machine's own invariant (indices are used, exclusive, and in the state that the protocol says) by induction over its steps. Programs do not catch panics of commits, and `merge` is used with debug assertions only (in release, an unfilled index of the merged graph's transactions may come along, see C14).
* **C62** `switch_context` while other threads use the new context. The call with arbitrary distinct draws (`Model/SwitchDraws.lean`); the loop invariants of C32 with the draws in place of a range; C01 for the interleavings. The schedule does matter: a new index may be equal to an old one that is processed later (C32), and whether it is depends on the draws of other threads.
* **C63** `Display` and `Debug` write the whole graph. Texts as lists of characters (`Model/Format.lean`), the texts of nodes and sources are parameters; a text of lines determines the lines, a line determines index and rest; C18 and C04 for the contents.
* **C64** Closures with side effects. The functions that call closures with a state threaded through (`Model/Effects.lean`); induction over the closure loops gives the list of calls; induction over programs: replacing the closures that wait by possible behaviours gives a state of the original program model.
* **C65** Misspelt names. `Compiles` (`Model/Compile.lean`) lists what the macros check and which names the generated code refers to; equivalence with a specification in terms of declared names, by the membership lemmas of the tables.
* **C66** Reading declarations. The parsers (`Model/Parse.lean`) on token trees against a grammar given as inductive relations (`Spec/Grammar.lean`): each parser takes exactly a text of what it returns; lists by induction on the input and on the grammar.
* **C67** Field types. Paths are resolved in a scope (`Spec/Grammar.lean`); the recognised spellings are compared with what resolves to a collection of node indices.
* **C68** Feature `debug`. The functions that use the recorder are defined once more with a recorder that does nothing; the nodes they compute are shown not to depend on the record.
* **C69** Files. `new_from_iter` and `merge_nodes` by induction over the list; then the lemmas for bidirectional completion of a commit with nothing removed.
* **C70** Reading again. After completion every link is answered (the lemma for C25), so a second completion adds nothing; order and counter by C69.
* **C71** Pieces of a transaction. The operations without the record of link changes (`operateOff`, C68) are a chain of steps; lists are cut by `foldE_append`.
* **C72** A node can be put in the place of another. Specialises the phases of C03 to `redirect_all_links(a, b)` with `remove(a)` (`Spec.Replaced`) and evaluates the completion of C23 on it; C13 gives that the commit returns.
* **C73** `Vec` fields in `bidirectional!` lines. Induction over the recorded changes with all outcomes, including the two panics on `Vec`s; negation for `Vec`s that hold a node twice on the way.
* **C74** What a commit reaches. The footprint of C59 with one node left out; uniqueness of the result restricted to a part of the graph.
* **C75** Insertions undone by removals. Removal-only transactions have nothing to complete; the opposites added by the first commit are links to removed nodes.
* **C76** `mutate` and `update` interchangeable. The two closure loops are characterised node by node, independently of the function that applies a closure.
* **C77** Closures that call the API. Programs as a relation in which a call contains the run of its closures (`Spec/Nested.lean`); induction over runs, with the frame lemma that a run leaves the objects held by calls in progress alone and `C64` for the single commit.
* **C78** Check functions with side effects. `check_change` with a state threaded through (`Model/CheckEffects.lean`); the list of the calls is built by induction over the items and over the sorted names; what the items are comes from C60.
* **C79** An earlier state is restored. The operations overwrite and remove; since the old state has no dangling links the result is the old state; symmetry of the old state (C22) shows that completion finds every opposite in place. `C79_variant_differ` shows that the variants must be the same.
* **C80** The graphs of careful programs are exactly the well-formed states. One direction: the invariants of C12, C22 and C27, and that steady commits leave no node twice in such a `Vec`. The other: by induction, a program that allocates all indices up to the largest and fills or gives up each; C13 shows that the commit returns, symmetry that completion adds nothing.
* **C81** The order of declarations does not matter. The generated tables are permutations of each other, so the relational facts about a commit (opposites, kinds, types) coincide; the comparison of executions of C50 is proved for two declarations with the same tables. With variants in the same order, by congruence. `C81_choice_differ` shows that with two possible opposites the order of variants can decide whether a commit panics.
* **C82** Spelling of names. The generated tables with names in camel case (`Model/Spelling.lean`); membership in them is characterised by the lines of the declaration, and the tables are compared with those of the declaration written with the names of the structs. `C82_two_spellings_fails` and `C82_placeholder_fails` are the exceptions.
* **C83** Programs that catch panics. A larger notion of reachable worlds (`Spec/Catching.lean`) with caught panics as steps; by induction over it, what a panicking method leaves (`TOp.left`) is what some call that returns leaves, or, for `update`, satisfies the invariant of worlds all the same. `C83_update_fails` is the exception.
* **C84** Programs whose threads go on during a `switch_context`. A larger notion of reachable worlds (`Spec/Interleaved.lean`): the call is a step that takes the graph away, one step per index, and a step that gives the new graph back. Invariant: that of worlds, and the draws of unfinished calls have no owner and are pairwise different. What it implies for the program is stated once for C83 and C84 (`Spec/Intact.lean`).
* **C85** Only the net effect of a transaction counts. `Spec/Net.lean` compares what the operations of two transactions make of two views (`Performed`). The recorder of link changes holds exactly the net changes, completion is a function of the nodes before and after the operations, and every panic of the last phases is characterised by them. The checks of `commit_checked` are run on net changes only (C60), so their verdicts agree too.
* **C86** Threads that catch panics while others are in the middle of a `switch_context`. The steps of C83 and C84 in one notion of reachable worlds (`Spec/Threads.lean`), of which both are special cases; the invariant is that of C84, and a caught panic gives nobody an index.
* **C87** Programs do not notice that counters are machine words. The functions that draw indices once more with a counter modulo `W` (`Model/Wrap.lean`); as long as the counter stays below `W`, each call has the same effect as in `World.exec`, by induction over the lists of nodes that `extend` and `switch_context` insert. The counter is bounded by the largest index in the files and the number of indices handed out. For threads, `Spec/WrapThreads.lean` states the interleavings of C84, and those of C86 with caught panics, once more for a `usize` with `W` values, keeping what the loop of `switch_context` has inserted so far; each such execution is matched by one of C84 or C86, and the other way round.
* **C88** The order of iteration does not depend on the values of indices. The lists of `Spec/Order.lean` (C52) commute with a renaming of indices: each step of a commit, of a method, of `deserialize_graph` and of `switch_context` is a list operation that only compares indices for equality; induction on two executions side by side, on top of the invariant of C50.
* **C89** A saved graph can be loaded and the program goes on. The comparison of executions of C50 and C88, started from the world in which the graph was saved and the world in which it has been loaded: after the round trip (C33, C52) the invariant holds with a correspondence that fixes the saved nodes.
* **C90** A panic of commit says what is wrong. Every phase of a commit is followed to the place where it stops; the invariant of reachable graphs excludes all lookups that could fail internally, and what is left is one constructor of `Reason` each. The view at the moment of the panic is that of C49 (`Before`). That no mistake is overlooked follows from C58: what can be carried out and completed has none of them.
* **C91** A program can be run again. `Reruns` (Spec/Rerun.lean) runs a program twice, with other context ids and with nodes that are `Node.Same` (equal up to the order of sets) as arguments. The relation between the two worlds is the correspondence of C88 with the identity on indices; `switch_context` is followed separately, because under the identity it agrees even when indices collide. Whether a commit returns is compared through the characterization of C58; for `commit_checked`, the links and nodes that the checks are run on are those of C60, which are the same in both runs; `C91_refused` gets the names in the panic from `C60_report` in both runs and from the fact that an ascending list is determined by its elements. The other calls return in one run exactly if in the other: the indices the dispatchers know are shown to be the same too, and a load fails only for reasons (conflict, missing link in a `Vec`) that depend on links alone. `C91_replay` puts these together, by induction over the calls of a program.
* **C92** Objects that no call brings together do not influence each other. `Parts` (Spec/Parts.lean) assigns every context, graph and transaction to a part, `Within` says which objects a call names. Invariant: graphs and transactions belong to the part of their context. Case analysis of every call: a call of a part does the same to the part whatever the others are, a call of another part does not touch it; then induction over the interleaving. What this rests on is that a context counter is reachable only through its own context (`Arc<AtomicUsize>` in `Context`, no statics in src/): in the model the counters are a function of the context. `Spec/PartThreads.lean` writes the executions of C84, in which a `switch_context` draws its indices one at a time, as lists of events (`C92_events`: the same executions); `C92_threads` and `C92_switch` are proved for these. Threads are modelled by interleaved calls, so data races inside a call are outside (C55 deals with shared counters).
* **C93** A graph of another context can be moved into a graph. `C32_returns_partial` for `switch_context`, whose isomorphism carries `Whole` over; then `C34_returns`. `Joined` (Spec/Moved.lean) says what the result is. It inherits the condition of C32 on colliding indices, without which it is false (`Demo.C93_fails`). `C93_detour`: two further calls of `switch_context` make the indices large enough, so that the condition holds.

## Where the code does not have the property

Every `_fails` theorem is a history of API calls on which the code, read literally, breaks its documentation. In short:

* C05, C04: redirecting to the empty index records back links under the empty index that are never removed.
* C14: in a release build, an index that was allocated, never filled and committed can be filled by another transaction that merges the graph.
* C15: `fill_back_untyped` accepts an index that is occupied by a node of another variant, or by a node of the graph.
* C16: withdrawing a pending node reorders the other pending nodes; with several possible opposites this decides whether the commit panics.
* C19: `iter` goes variant by variant, not by index. C20: `update` may change the variant but not the container.
* C24, C26: a pair of fields that is connected twice (once through a link group) makes every commit that adds such a link panic.
* C25: removing a link may take away the opposite of another link when a field has several possible opposites.
* C27, C28, C29: links made by bidirectional completion, and some links of `Vec` fields, are neither type-checked nor given to link-add checks.
* C28: of several annotations of one field under one name only the smallest is enforced.
* C30: link-remove checks run on the added links. C31: node checks miss data changes and new nodes without links, and panic on removed nodes.
* C32: `switch_context` loses links when an old index equals a new index given out earlier. C33: reading a file completes opposites that a
  dangling link missed; the new counter ignores indices of external links.
* C67: a field of type `Vec::<ttgraph::NodeIndex>` is a data field, although the documentation (src/lib.rs:52) lists it as acceptable; likewise `::ttgraph::NodeIndex`,
  `::std::vec::Vec<NodeIndex>`, `set::OrderSet<NodeIndex>`. Nothing is reported.
* C69: `deserialize_graph` accepts a node under the empty index, links that `link_type!` forbids, and links to indices that are not in the file; the next node inserted gets such an index.
* C71: a transaction cannot be cut in two if `bidirectional!` or `link_type!` is used: the first piece may panic on what the second one puts right.
* C73: with a `Vec` field in a `bidirectional!` line, a `Vec` that gets a node twice and then loses one of the two in the same transaction keeps a link without opposite.
* C68: `add_link` and `remove_link` are empty without the feature `debug`, but bidirectional completion and the link type check read what they record; without the feature
  opposite links would not be maintained and link types not enforced.
* C65: a link misspelt in its case only (`fooBar` for `foo_bar`) is accepted; a variant whose snake case is reserved (`If`, `Loop`, `Return`) does not compile.
  `link_type!` on an unknown variant is ignored. A group declared twice means its first declaration to `iter_group` and its last to `bidirectional!`; a group
  with the name of a variant hides it; with two `#[group]` attributes on a field a line `A.k <-> B.h` is not symmetric; `#[group(k, k)]` makes commits panic.
* C62: whether `switch_context` loses such links depends on what other threads draw from the new context meanwhile.
* C81: if a link has two possible opposites on a variant, the order in which variants are declared can decide whether a commit panics.
* C82: two lines of `bidirectional!` that spell a link differently (`foo_bar`, `fooBar`) compile, but the opposites declared for the second spelling are lost in one direction; a line may also name the placeholder `empty` of a struct without links.
* C83: after a caught panic of an `update` closure, the index of the lost node can be filled again with `fill_back`, although it was never allocated (or was filled before).
* C84: as in C62, another thread that inserts a node at the wrong moment makes a `switch_context` lose a link (`Demo.C84_iso_fails`).
* C85: if a field has several opposites, two transactions with the same net effect on the same graph may differ: one commit returns, the other panics, depending on the order in which links are added (`Demo.C85_order_differ`).
* C87: a file may contain a node under the largest index. Then the context that `deserialize_graph` makes wraps around at the first draw: the empty index is handed out (release build), and then indices of nodes of the file, which commits overwrite (`Demo.C87_loaded_fails`, `Demo.C87_debug_fails`).
* C88: whether `switch_context` loses a link depends on the values of the indices: two executions that differ only in how far the counters have advanced are no longer the same up to renaming after a move (`Demo.C88_switch_fails`).
* C36: contexts are not compared in release builds, `Context::default()` contexts and deserialized contexts share ids.
* C38: most panics leave the graph half changed.
* C49: a panic in a `mutate` closure leaves the graph with an inconsistent back-link record, one in an `update` closure loses the node. After other panics the graph is consistent but may have dangling links.
* C51: `fill_back` on an index that is taken replaces the node before it panics; a panic in an `update` closure loses the pending node, and a later commit does not notice.
* C39: empty `Vec` slots are listed by `get_links_by_group`. C40: two `#[group]` attributes on one field shift the groups of later fields.
  C41: fields whose type is not written as a path are not found. C44: replacing a set element by itself is reported as removed and added.
