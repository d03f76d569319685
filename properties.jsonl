{"id": "C01", "title": "Indices handed out by one context are unique and never empty", "statement": "All NodeIndex values returned by insert/alloc/alloc_untyped on transactions (and by switch_context) that share one Context are pairwise distinct and none equals NodeIndex::empty(), whatever the interleaving of the calling threads, as long as fewer than 2^64 indices were handed out (for a context that deserialize_graph has made: as long as this number and the largest index in the file are together below 2^64; otherwise see C87).", "quantifier": "every number of threads, every schedule of atomic id requests, every start of the counter and every number of requests that are together below 2^64", "why_tests_cant": "A test samples a few interleavings; a collision may need one particular schedule or a wrapped 64-bit counter.", "anchors": ["src/id_distributer.rs: IdDistributer::alloc", "src/typed_graph.rs: Context", "ttgraph_macros/src/cate_arena.rs: alloc, alloc_untyped"]}
{"id": "C02", "title": "Committing never overwrites an existing node", "statement": "In every history in which transactions and graphs come from the same context and fill_back_untyped is only used on indices obtained from alloc_untyped of that transaction, the indices a transaction inserts are not present in the graph it is committed to, so every node that was in the graph and is not mutated, updated, removed or relinked by the transaction is unchanged by commit.", "quantifier": "every history of API calls on one context with any number of graphs and transactions; bidirectional! lines name no Vec field (README.md:240 says that Vec is not supported there), or at least no such Vec holds a node twice during a commit (otherwise see C73)", "why_tests_cant": "Histories are unbounded: the collision could only show after a long mix of allocs, removes, merges and commits.", "anchors": ["src/typed_graph.rs: merge_nodes, do_commit", "src/typed_graph/transaction.rs", "ttgraph_macros/src/cate_arena.rs: merge"]}
{"id": "C03", "title": "Commit applies its operations in the documented order", "statement": "If commit returns, the observable nodes are exactly the result of: redirect_links on the old nodes, insertion of the new nodes, mutate closures in call order, update closures in call order, redirect_all_links on all nodes, removals, and finally bidirectional completion.", "quantifier": "every consistent graph and every transaction for which commit does not panic; bidirectional! lines name no Vec field (README.md:240 says that Vec is not supported there), or at least no such Vec holds a node twice during a commit (otherwise see C73)", "why_tests_cant": "The composition of seven phases over arbitrary graphs and closures has no finite covering set of cases.", "anchors": ["src/typed_graph.rs: do_commit"]}
{"id": "C04", "title": "Back-link index stays consistent", "statement": "After any sequence of commits from an empty graph, the hidden reverse index used by remove/redirect/switch_context agrees with the links stored in the nodes: y is recorded as pointed to by field s of x iff field s of x holds y. Hence check_backlinks() never panics.", "quantifier": "every history of commits (redirects from NodeIndex::empty() excluded)", "why_tests_cant": "One stale entry only surfaces several commits later, as a panic or as a corrupted link.", "anchors": ["src/typed_graph.rs: add_back_links, remove_back_links, redirect_links, remove_node, modify_node, update_node, check_backlinks"]}
{"id": "C05", "title": "Redirecting to or from the empty index", "statement": "Redirecting links to NodeIndex::empty() clears them and leaves no trace: a later redirect from NodeIndex::empty() must not touch links that were meanwhile set to real nodes.", "quantifier": "every graph and every sequence of transactions", "why_tests_cant": "Needs a three-transaction history with an unusual argument.", "anchors": ["src/typed_graph.rs: redirect_links"]}
{"id": "C06", "title": "Removing a node clears every link to it", "statement": "After a commit in which an existing node x was removed, get(x) is None and no link field of any remaining node holds x: a direct link becomes empty, a Vec slot becomes empty and keeps its position, a set loses the element; all other links and all data of the remaining nodes are as without the removal.", "quantifier": "every consistent graph, every transaction, every removed node, every field kind", "why_tests_cant": "The set of referring nodes and fields is unbounded, including self references and duplicates in a Vec.", "anchors": ["src/typed_graph.rs: remove_node", "ttgraph_macros/src/typed_node.rs: modify_link arms"]}
{"id": "C07", "title": "Redirection sends every link to the end of its replacement chain", "statement": "After a committed batch of redirects, every link that pointed to a redirected node points to the last node of the replacement chain starting there, links to other nodes are unchanged, and no link to a redirected node remains; the result does not depend on the order of the requests when every node is redirected at most once.", "quantifier": "every consistent graph and every loop-free list of redirect requests; bidirectional! lines name no Vec field (README.md:240 says that Vec is not supported there), or at least no such Vec holds a node twice during a commit (otherwise see C73); that success does not depend on the order: declarations with one opposite per field and variant, none declared twice, and no annotated Vec that holds a node twice (see C24, C28)", "why_tests_cant": "Chains of any length in any request order; the union-find with path compression has unboundedly many states.", "anchors": ["src/typed_graph.rs: redirect_links_vec, redirect_links"]}
{"id": "C08", "title": "Redirect loop detection is exact and terminates", "statement": "A batch of redirects in which every node is redirected at most once panics with a loop error iff following the requests from some node leads back to it; the computation always terminates.", "quantifier": "every list of redirect requests", "why_tests_cant": "Unbounded number of chain shapes; non-termination cannot be tested.", "anchors": ["src/typed_graph.rs: redirect_links_vec"]}
{"id": "C09", "title": "Redirecting one node twice: the first request wins", "statement": "If one node is redirected several times in the same batch, its links go where the first request (followed along the chain) says; later requests for the same node move nothing.", "quantifier": "every loop-free list of redirect requests with repeated sources", "why_tests_cant": "Depends on the interplay of all requests in the list.", "anchors": ["src/typed_graph.rs: redirect_links_vec"]}
{"id": "C10", "title": "redirect_links spares new nodes, redirect_all_links does not", "statement": "A link to a redirected node held by a node inserted in the same transaction is left alone by redirect_links and follows the redirect with redirect_all_links.", "quantifier": "every graph and transaction", "why_tests_cant": "Quantifies over every combination of inserted nodes and redirect chains.", "anchors": ["src/typed_graph.rs: do_commit", "src/typed_graph/transaction.rs: redirect_links, redirect_all_links"]}
{"id": "C11", "title": "mutate and update touch exactly their node", "statement": "A commit that only mutates/updates nodes leaves all other nodes unchanged (unless linked to the changed node by a bidirectional declaration) and gives each target the value of its closures applied in order, all mutates before all updates.", "quantifier": "every graph, every list of closures; bidirectional! lines name no Vec field (README.md:240 says that Vec is not supported there), or at least no such Vec holds a node twice during a commit (otherwise see C73)", "why_tests_cant": "Closures are arbitrary functions.", "anchors": ["src/typed_graph.rs: modify_node, update_node, do_commit"]}
{"id": "C12", "title": "Commit cannot silently create a dangling link by mutation", "statement": "mutate/update closures that leave a link to an index unknown to the graph make commit panic; if the graph had only internal links and inserted nodes and redirect targets refer to nodes that exist, then after commit all links are internal again (check_integrity passes).", "quantifier": "every integral graph and every transaction", "why_tests_cant": "Integrity is an invariant over all histories.", "anchors": ["src/typed_graph.rs: modify_node, update_node, remove_node, check_integrity"]}
{"id": "C13", "title": "Commit succeeds on every valid transaction", "statement": "If all nodes to be mutated, updated or removed exist, redirect sources are known and loop-free, closures do not panic and only link to known nodes, no bidirectional conflict arises, no added link lacks an opposite where there are several possibilities (or one that is declared several times), and link types are right, then commit does not panic.", "quantifier": "every consistent graph and every transaction; bidirectional! lines name no Vec field (README.md:240 says that Vec is not supported there), or at least no such Vec holds a node twice during a commit (otherwise see C73)", "why_tests_cant": "Absence of panics over all inputs.", "anchors": ["src/typed_graph.rs: do_commit"]}
{"id": "C14", "title": "alloc/fill_back protocol errors are detected", "statement": "fill_back panics on an index that was not allocated with a type, on an index already filled, and on data of another variant; otherwise it stores the data. With debug assertions on, commit panics while an allocated index is unfilled.", "quantifier": "every transaction state, index and node", "why_tests_cant": "Any reachable transaction state may precede the call.", "anchors": ["src/cate_arena.rs: fill_back", "src/typed_graph/transaction.rs: alloc, fill_back", "src/typed_graph.rs: do_commit"]}
{"id": "C15", "title": "fill_back_untyped protocol errors are detected", "statement": "fill_back_untyped panics on every index that is already occupied, so that an index never names two nodes (len() equals the number of distinct indices).", "quantifier": "every transaction state, index and node", "why_tests_cant": "Needs a clash between two variants, which the unit tests never try.", "anchors": ["ttgraph_macros/src/cate_arena.rs: fill_back_untyped"]}
{"id": "C16", "title": "Insert then remove inside one transaction cancels out", "statement": "Removing an index that was inserted or allocated in the same uncommitted transaction withdraws it: after commit the index is absent and the rest of the graph is as if it had never been inserted; removing a committed node twice in one transaction is the same as removing it once.", "quantifier": "every transaction state", "why_tests_cant": "Any sequence of operations may surround the pair.", "anchors": ["src/typed_graph/transaction.rs: remove", "ttgraph_macros/src/cate_arena.rs: remove"]}
{"id": "C17", "title": "Mutating a node inserted in the same transaction equals inserting the mutated node", "statement": "trans.insert(n) followed by trans.mutate/update(i, f) leaves the same pending node as trans.insert(f(n)).", "quantifier": "every transaction, node and closure", "why_tests_cant": "Closures are arbitrary.", "anchors": ["src/typed_graph/transaction.rs: mutate, update"]}
{"id": "C18", "title": "iter lists every node exactly once and len counts them", "statement": "graph.iter() (and into_iter, and &graph) yields every (index, node) with get(index) = node exactly once; size_hint/len of the iterator is exact at each step; graph.len() is the number of nodes; is_empty() iff there is none.", "quantifier": "every graph reachable by API calls, every number of variants and nodes", "why_tests_cant": "Per-variant containers with swap-removal: unbounded sizes and histories.", "anchors": ["ttgraph_macros/src/cate_arena.rs: make_cate_arena_iter, len", "src/typed_graph.rs: iter, len"]}
{"id": "C19", "title": "iter follows the order of NodeIndex", "statement": "graph.iter() yields the nodes in increasing order of NodeIndex, as its documentation says.", "quantifier": "every reachable graph", "why_tests_cant": "Order depends on the whole history.", "anchors": ["src/typed_graph.rs: iter"]}
{"id": "C20", "title": "iter_type lists exactly the nodes of the variant", "statement": "graph.iter_type(d) and iter_nodes!(graph, V) yield exactly the nodes whose variant is d, and iter_nodes! never panics.", "quantifier": "every reachable graph, every discriminant", "why_tests_cant": "Closures passed to mutate/update are arbitrary and may change the variant.", "anchors": ["src/typed_graph.rs: iter_type", "src/cate_arena.rs: update_with", "src/typed_graph/macros.rs: iter_nodes"]}
{"id": "C21", "title": "iter_group lists exactly the nodes of the group", "statement": "graph.iter_group(name) yields exactly the nodes whose variant is declared in the group of that name, each once, and nothing for an unknown name.", "quantifier": "every reachable graph and every group declaration", "why_tests_cant": "Ranges over all declarations and graphs.", "anchors": ["src/typed_graph.rs: iter_group", "ttgraph_macros/src/group.rs: make_in_group"]}
{"id": "C22", "title": "Bidirectional links are symmetric after every commit", "statement": "For links declared A.f <-> B.g where no field has two possible opposites on one variant: in every graph reached by commits, for all nodes a of variant A and b of variant B, b is in a.f iff a is in b.g.", "quantifier": "every history of commits whose closures keep the variant of a node and that leave no dangling links; every declaration of that kind; bidirectional! lines name no Vec field (README.md:240 says that Vec is not supported there), or at least no such Vec holds a node twice during a commit (otherwise see C73)", "why_tests_cant": "An invariant of all histories and all combinations of direct and set fields.", "anchors": ["src/typed_graph.rs: apply_bidirectional_links, LinkChangeRecorder", "ttgraph_macros/src/bidirectional.rs"]}
{"id": "C23", "title": "Bidirectional completion is exact", "statement": "Besides the user's own changes, commit adds the opposite of every link the transaction added and removes the opposite of every link it removed, and changes no other link, field or data.", "quantifier": "every consistent graph, every transaction; bidirectional! lines name no Vec field (README.md:240 says that Vec is not supported there), or at least no such Vec holds a node twice during a commit (otherwise see C73)", "why_tests_cant": "Unbounded sets of changed links.", "anchors": ["src/typed_graph.rs: apply_bidirectional_links"]}
{"id": "C24", "title": "Bidirectional conflict panics exactly when a direct field would need two values", "statement": "With one possible opposite per field and variant, commit panics in bidirectional completion iff some direct field would have to hold two different nodes.", "quantifier": "every consistent graph and transaction", "why_tests_cant": "Both directions quantify over all sets of added links.", "anchors": ["src/typed_graph.rs: apply_bidirectional_links", "ttgraph_macros/src/typed_node.rs: add_link arms"]}
{"id": "C25", "title": "Bidirectional links with several possible opposites", "statement": "When a field has several possible opposites on one variant (group declarations), each added link finds or gets an opposite, and after every commit each link still has an opposite.", "quantifier": "every declaration and every history", "why_tests_cant": "Needs particular histories moving a link between two fields of a group.", "anchors": ["src/typed_graph.rs: apply_bidirectional_links"]}
{"id": "C26", "title": "Group declarations equal their expansion", "statement": "bidirectional! and link_type! lines that use variant groups and link groups behave like the list of all lines obtained by replacing every group by its members; the opposite relation is symmetric.", "quantifier": "every list of variants, groups and declarations", "why_tests_cant": "Ranges over all declarations.", "anchors": ["ttgraph_macros/src/bidirectional.rs: expand_bidirectional_links, make_bidirectional_link", "ttgraph_macros/src/link_check.rs", "src/typed_graph/macro_traits.rs: get_bidiretional_link_mirrors_of, check_link_type"]}
{"id": "C27", "title": "Link types hold for every link after commit", "statement": "If commit returns, every link that this commit added to the graph and whose target is in the graph satisfies its link_type! annotations; hence in every reachable graph all links are well typed.", "quantifier": "every graph, transaction and annotation", "why_tests_cant": "Needs all ways in which a link can be added, including bidirectional completion and Vec duplicates.", "anchors": ["src/typed_graph.rs: check_link_type, LinkChangeRecorder, apply_bidirectional_links"]}
{"id": "C28", "title": "All link_type! annotations of a field are enforced", "statement": "If a field carries several annotations (directly or through groups), a link is accepted iff the target's variant is allowed by every one of them.", "quantifier": "every list of annotations", "why_tests_cant": "Ranges over all declarations.", "anchors": ["ttgraph_macros/src/link_check.rs: make_check_link_type", "src/typed_graph/macro_traits.rs: check_link_type"]}
{"id": "C29", "title": "commit_checked runs link-add checks on every added link", "statement": "If commit_checked returns, every registered link-add check returned Ok on every link added by the transaction, evaluated on the final graph.", "quantifier": "every graph, transaction and set of check functions", "why_tests_cant": "Check functions are arbitrary.", "anchors": ["src/typed_graph.rs: check_change, commit_checked"]}
{"id": "C30", "title": "commit_checked runs link-remove checks on removed links", "statement": "If commit_checked returns, every registered link-remove check returned Ok on every link removed by the transaction, and was not required on links that were only added.", "quantifier": "every graph, transaction and set of check functions", "why_tests_cant": "Check functions are arbitrary.", "anchors": ["src/typed_graph.rs: check_change"]}
{"id": "C31", "title": "commit_checked runs node checks on changed and new nodes", "statement": "commit_checked runs every node check on every node that was changed or newly inserted, and does not panic when nodes are removed and all checks pass.", "quantifier": "every graph, transaction and set of check functions", "why_tests_cant": "Check functions are arbitrary.", "anchors": ["src/typed_graph.rs: check_change", "src/typed_graph/check.rs"]}
{"id": "C32", "title": "switch_context is an isomorphism", "statement": "switch_context returns a graph with the same nodes under new indices of the new context: there is a bijection of indices that maps every node to one with the same variant and data and with every link renamed by the bijection. The call draws exactly one index per node, and the nodes get them in the order of iteration.", "quantifier": "every consistent graph without external links and every target context", "why_tests_cant": "Whether renaming is simultaneous depends on how old and new indices overlap.", "anchors": ["src/typed_graph.rs: switch_context"]}
{"id": "C33", "title": "Serialize/deserialize round trip", "statement": "deserialize_graph applied to the serialized form of a graph returns a graph with the same context id, the same nodes under the same indices, consistent back-links, and a context whose next indices are larger than every index in use.", "quantifier": "every reachable graph; as long as the counter does not overflow (otherwise see C87)", "why_tests_cant": "Ranges over all graphs.", "anchors": ["src/typed_graph/serialize.rs", "src/typed_graph.rs: do_deserialize"]}
{"id": "C34", "title": "Merging a graph keeps all nodes", "statement": "After trans.merge(other) and commit, the target graph holds all its old nodes and all nodes of other under their indices with links intact; merge panics if contexts differ.", "quantifier": "every pair of graphs of one context; bidirectional! lines name no Vec field (README.md:240 says that Vec is not supported there), or at least no such Vec holds a node twice during a commit (otherwise see C73)", "why_tests_cant": "Ranges over all pairs of graphs.", "anchors": ["src/typed_graph/transaction.rs: merge", "ttgraph_macros/src/cate_arena.rs: merge"]}
{"id": "C35", "title": "Empty transactions do nothing", "statement": "Transaction::is_empty() holds iff no operation is pending, and committing an empty transaction leaves every observation of the graph unchanged.", "quantifier": "every graph and every transaction history", "why_tests_cant": "Any sequence of operations that cancels out may precede.", "anchors": ["src/typed_graph/transaction.rs: is_empty", "src/typed_graph.rs: do_commit"]}
{"id": "C36", "title": "Transactions of another context are refused", "statement": "Committing a transaction created from another context panics and leaves the graph unchanged.", "quantifier": "every graph, transaction and build profile", "why_tests_cant": "Depends on the build profile and on context identity across serialization.", "anchors": ["src/typed_graph.rs: do_commit, Context", "src/typed_graph/serialize.rs"]}
{"id": "C37", "title": "Building or dropping a transaction does not change any graph", "statement": "No method of Transaction other than being committed (or merging, which consumes its argument) changes any graph; give_up and drop have no effect on graphs. The contents of a graph depend only on the transactions committed to it.", "quantifier": "every history of API calls", "why_tests_cant": "Quantifies over all histories.", "anchors": ["src/typed_graph/transaction.rs"]}
{"id": "C38", "title": "A commit that panics leaves the graph unchanged", "statement": "All operations of a transaction are applied at the same time or not at all: when commit panics (and the panic is caught) the graph is as before.", "quantifier": "every graph, every transaction, every panic point", "why_tests_cant": "Every operation of the commit is a possible crash point.", "anchors": ["src/typed_graph.rs: commit, do_commit"]}
{"id": "C39", "title": "Query by name and group returns the declared links", "statement": "get_links_by_name(f) yields exactly the non-empty targets of field f in order; get_links_by_group(g) yields exactly the non-empty targets of the fields declared in group g; unknown names yield nothing.", "quantifier": "every node declaration, node and name", "why_tests_cant": "Ranges over all declarations and values.", "anchors": ["ttgraph_macros/src/typed_node.rs: iter_links, get_links_by_name", "ttgraph_macros/src/group.rs: make_get_links_by_group"]}
{"id": "C40", "title": "A link belongs to exactly its declared groups", "statement": "A link field belongs to the groups listed in its #[group(...)] attributes and to no others, both for get_links_by_group and for declarations in bidirectional!/link_type!.", "quantifier": "every struct declaration the derive macro accepts", "why_tests_cant": "Ranges over all declarations.", "anchors": ["ttgraph_macros/src/lib.rs: typed_node", "ttgraph_macros/src/typed_node.rs: to_log_arms", "ttgraph_macros/src/group.rs"]}
{"id": "C41", "title": "data_ref_by_name finds every data field of the right type", "statement": "data_ref_by_name::<T>(f) returns the field iff the node has a data field f of type T, otherwise None.", "quantifier": "every struct declaration, node, name and type", "why_tests_cant": "Ranges over all declarations.", "anchors": ["ttgraph_macros/src/lib.rs: typed_node", "ttgraph_macros/src/typed_node.rs: data_ref_by_name"]}
{"id": "C42", "title": "Calls of different kinds in one transaction commute", "statement": "The result of a commit does not depend on the relative order in which redirect_links, redirect_all_links, mutate, update and remove calls on nodes already in the graph were made within the transaction, only on the order within each kind.", "quantifier": "every graph and every interleaving of the calls", "why_tests_cant": "All interleavings of unboundedly many calls.", "anchors": ["src/typed_graph/transaction.rs"]}
{"id": "C43", "title": "get_node!, mut_node!, update_node!, alloc_node! respect the variant", "statement": "get_node!(g, V, i) is Some iff node i exists with variant V; mut_node!/update_node! on a node of another variant panic at commit (or at the call for a node of the same transaction) and update_node! keeps the variant. alloc_node!(t, V) reserves an unused index that fill_back then gives to nodes of variant V only.", "quantifier": "every graph, index, variant and closure", "why_tests_cant": "Closures are arbitrary.", "anchors": ["src/typed_graph/macros.rs"]}
{"id": "C44", "title": "Link operations on a node change one field only", "statement": "Relinking, adding or removing one link in one field changes only that field, changes no data, no variant and no Vec length, and reports added/removed truthfully.", "quantifier": "every node value, field and target", "why_tests_cant": "Ranges over all node values.", "anchors": ["ttgraph_macros/src/typed_node.rs: modify_link, add_link, remove_link, contains_link"]}
{"id": "C45", "title": "Every method of Transaction has exactly its documented effect on what is pending", "statement": "insert, extend, alloc, alloc_untyped, fill_back, fill_back_untyped, remove, mutate, update, redirect_links and redirect_all_links change exactly the pending operations their documentation names (which nodes will be inserted, which indices are unfilled, which nodes will be removed, which closures and redirects are queued and in which order) and nothing else; only fill_back and closures applied to pending nodes can panic.", "quantifier": "all programs, all states of a transaction, all arguments", "why_tests_cant": "The effect depends on whether the index is pending, allocated or neither, after an arbitrary sequence of earlier calls.", "anchors": ["src/typed_graph/transaction.rs: insert, alloc, alloc_untyped, fill_back, fill_back_untyped, remove, mutate, update, redirect_links, redirect_all_links, extend"]}
{"id": "C46", "title": "The index of a removed node never comes back", "statement": "Once a commit has removed a node, no graph of that context ever contains a node with that index again and no transaction of that context ever holds it as a pending or allocated node, whatever calls follow. In a debug build the same is true of every index that was once in use and is no longer in use anywhere.", "quantifier": "all programs, all commits in them, all removed nodes, all continuations of the program", "why_tests_cant": "Ranges over every continuation of every history; index reuse would only show after a particular later sequence of inserts, merges, fills and commits.", "anchors": ["src/typed_graph.rs: do_commit, remove_node, merge_nodes", "src/typed_graph/transaction.rs: insert, alloc, fill_back, merge", "src/id_distributer.rs"]}
{"id": "C47", "title": "A commit changes the number of nodes by exactly what it inserts and removes", "statement": "After a successful commit, len() plus the number of nodes the transaction removes equals the former len() plus the number of nodes the transaction inserts; updates, mutations and redirects never change the number of nodes.", "quantifier": "all graphs and transactions a program can pair up, all successful commits", "why_tests_cant": "Ranges over all transactions, including those that update nodes to another variant or insert and remove in the same commit.", "anchors": ["src/typed_graph.rs: commit, len, merge_nodes, remove_node, update_node"]}
{"id": "C48", "title": "The build profile does not change results", "statement": "A program that follows the protocol (each transaction committed to a graph of its own context, no allocated index left unfilled) reaches the same graphs and transactions in a debug build as in a release build, and panics in the same calls with the same panic; the debug assertions fire only on a context mismatch or an unfilled allocation.", "quantifier": "all programs that follow the protocol, all call sequences", "why_tests_cant": "Tests run in one profile at a time and cannot compare every program across the two.", "anchors": ["src/typed_graph.rs: commit, commit_checked (debug_assert)", "src/typed_graph/transaction.rs"]}
{"id": "C49", "title": "A graph whose commit panicked is still consistent", "statement": "If a commit panics and the program catches the panic, the graph it keeps is still consistent: check_backlinks succeeds, no node is lost that the transaction did not remove, no node appears that the transaction did not insert, nodes that no closure was to change keep their variant and data, and the program can go on committing to it with the usual guarantees.", "quantifier": "all graphs and transactions a program can pair up, all panics of commit and commit_checked, all continuations of the program", "why_tests_cant": "Ranges over every point at which a commit can panic, on every graph, and every later history of the program.", "anchors": ["src/typed_graph.rs: commit, commit_checked, do_commit, modify_node, update_node, remove_node, redirect_links, apply_bidirectional_links", "src/cate_arena.rs: update_with"]}
{"id": "C50", "title": "The values of indices do not matter", "statement": "Two executions of the same program whose contexts hand out different indices (because other parts of the program draw indices from the same contexts in between) do the same: as long as their calls return, corresponding graphs hold the same nodes up to the one-to-one correspondence of indices that were handed out by corresponding calls, and corresponding transactions have corresponding pending operations. If a commit returns in one execution and the transaction of the other makes sense for its graph, the commit returns there too.", "quantifier": "all pairs of executions with corresponding calls, all index correspondences that keep the empty index, all interleaved calls on other objects; a compared graph that moves to another context does so without colliding indices (see C32, C88), a compared graph that is read from a file has corresponding files; bidirectional! lines name no Vec field (README.md:240 says that Vec is not supported there), or at least no such Vec holds a node twice during a commit (otherwise see C73); that the second commit returns: each field has one opposite per variant, no pair is connected twice and no annotated Vec holds a node twice", "why_tests_cant": "Ranges over every way the shared counter can be advanced by other parts of the program and over all programs.", "anchors": ["src/id_distributer.rs: IdDistributer", "src/typed_graph.rs: Context::next_id, commit, Transaction methods", "src/typed_graph.rs: switch_context", "src/typed_graph/serialize.rs: deserialize_graph"]}
{"id": "C51", "title": "A transaction method that panics leaves the transaction as it was", "statement": "If fill_back, fill_back_untyped, mutate, update or another method of a transaction panics and the program catches the panic, the transaction holds the same pending nodes and requests as before the call, and the program can go on with it as if the call had not been made.", "quantifier": "all reachable transactions, all methods and arguments, all closures and points at which they panic", "why_tests_cant": "Ranges over every transaction state and every way a user closure can panic; what is left behind is visible only to programs that catch the panic.", "anchors": ["src/cate_arena.rs: fill_back, update_with", "ttgraph_macros/src/cate_arena.rs: fill_back_untyped", "src/typed_graph/transaction.rs: fill_back, mutate, update"]}
{"id": "C52", "title": "The order of iteration is determined by the calls", "statement": "The order in which iter and iter_type yield nodes is a function of the calls of the program: a commit appends the new nodes of each variant, in the order in which they were inserted or filled, behind the old ones; a node that is updated goes to the end and the last node takes the place of a node that is removed or updated; mutation, redirection and bidirectional completion keep all places. In particular a commit that removes and updates nothing keeps the order of the old nodes. Merging appends the nodes of the merged graph in their order. Writing and reading a graph keeps the order, and switch_context keeps it and numbers the nodes in it.", "quantifier": "all programs, graphs, transactions and commits; the parts on switch_context and on writing and reading: closures keep the variant of nodes", "why_tests_cant": "Ranges over all histories of calls and all orders in which links are processed internally.", "anchors": ["src/cate_arena.rs: insert, fill_back, update_with", "ttgraph_macros/src/cate_arena.rs: remove, merge, iter", "src/typed_graph.rs: do_commit, switch_context, do_deserialize, iter, iter_type"]}
{"id": "C53", "title": "Registered checks: the last call for a name counts, order does not matter", "statement": "After any sequence of insert and remove calls on a GraphCheck, the function registered under a name is the one of the last call for this name and kind if that call inserted it, and nothing if it removed it or there was no call. commit_checked depends on the registered functions only, not on the order or history of registration; checks never change the resulting graph, with fewer checks a successful commit_checked stays successful with the same result, and without registered checks commit_checked is commit.", "quantifier": "all sequences of registration calls, all check functions, graphs and transactions", "why_tests_cant": "Ranges over all histories of registration and arbitrary check functions.", "anchors": ["src/typed_graph/check.rs: GraphCheck", "src/typed_graph.rs: commit_checked, check_change"]}
{"id": "C54", "title": "get_bidiretional_links lists what the declarations require", "statement": "get_bidiretional_links never panics; each entry belongs to one link field of the node, with exactly the indices in that field and exactly the opposite fields, and every field with an opposite has an entry. A graph has all opposites that the declarations require if and only if every node named in an entry links back through the fields named there.", "quantifier": "all declarations, nodes and graphs; bidirectional! lines name no Vec field (README.md:240 says that Vec is not supported there), or at least no such Vec holds a node twice during a commit (otherwise see C73)", "why_tests_cant": "Ranges over all declarations with groups of variants and links, and all nodes.", "anchors": ["ttgraph_macros/src/bidirectional.rs: make_bidirectional_link", "src/typed_graph/macro_traits.rs: get_bidiretional_links"]}
{"id": "C55", "title": "The schedule of threads that build transactions does not matter", "statement": "Several threads share a context and each builds its own transaction, using the indices its own calls return but not their numeric values. If all calls return with one interleaving of the calls, they return with every other interleaving of the same calls; each thread then gets the same indices and builds the same transaction up to one replacement of the indices given out in between, and nothing else differs. Committing the transactions in the same order then gives the same graph up to that replacement.", "quantifier": "all declarations, all numbers of threads, all thread programs that treat indices as opaque, all schedules, all earlier histories; bidirectional! lines name no Vec field (README.md:240 says that Vec is not supported there), or at least no such Vec holds a node twice during a commit (otherwise see C73)", "why_tests_cant": "The number of interleavings is unbounded, and a test sees only the ones the scheduler happens to choose.", "anchors": ["src/id_distributer.rs: IdDistributer::alloc", "src/typed_graph.rs: Context", "src/typed_graph/transaction.rs: Transaction"]}
{"id": "C56", "title": "A generated arena used on its own is a map", "statement": "An arena that a user builds with new, new_from_iter, alloc, insert, fill_back, fill_back_untyped, remove, update_with, get_mut, iter_mut and merge behaves as a map from indices to slots, where an index is unknown, reserved for a variant or holds a node: get, contains, dispatch and the containers read that map, iteration yields every node once and len counts them, and each call succeeds or panics exactly as the slot of its index says.", "quantifier": "all declarations, all sequences of calls on any number of arenas in which fill_back_untyped is not used on an occupied index, changes keep the variant and merged arenas share no index", "why_tests_cant": "The dispatch table and the containers are separate structures; that they agree after every sequence of calls is an invariant over unbounded histories.", "anchors": ["src/cate_arena.rs: CateArena", "ttgraph_macros/src/cate_arena.rs: make_arena"]}
{"id": "C57", "title": "Reflection describes the declared fields", "statement": "link_names, link_types and link_mirrors list the link fields of a struct in the order of their declaration, entry by entry; reading a field through its mirror is reading it by its name; iter_sources lists the targets of all fields in the order of link_mirrors, and every source converts to a mirror of the table and, outside Vec fields, back. check_link tells whether iter_links accepts a mirror, contains_link whether it lists an index. get_link_or_group_by_name knows exactly the link fields, their groups and the phantom groups, and expand_link_groups and to_link_or_groups are inverse to each other. Starting with first() and calling next() enumerates the variants in order.", "quantifier": "all declarations, all node values of their types, all positions, names, mirrors and sources", "why_tests_cant": "The tables are generated per declaration by separate loops of the macros; a test sees a few declarations only.", "anchors": ["ttgraph_macros/src/typed_node.rs: make_typed_node, make_link_mirror, make_node_source_enum, make_log_mirror", "ttgraph_macros/src/group.rs: make_get_link_or_group", "ttgraph_macros/src/node_enum.rs: check_link, to_source_enum", "ttgraph_macros/src/cate_arena.rs: make_node_discriminant"]}
{"id": "C58", "title": "A commit returns exactly when its operations can be carried out", "statement": "In a program without dangling links, commit(t) returns (does not panic) if and only if: every index allocated by t was filled (debug builds); its operations can be carried out in the documented order, where redirected nodes must exist and the requests form no loop, mutate and update closures are applied to nodes that exist, do not panic and leave only links to nodes of the graph or new nodes, and removed nodes exist; and the result can be completed: no direct bidirectional field needs two values, and every new link to a node is permitted by its type annotations. No other reason for a panic exists, and none of these is ever missed.", "quantifier": "all declarations without irregular bidirectional or type lines, all histories of sound commits, all pending transactions with arbitrary closures that do not depend on set order; no Vec field with an opposite or an annotation holds a node twice during the commit, each node is redirected at most once per kind", "why_tests_cant": "Both directions range over all graphs, transactions and closures; a test shows single panics and single successes only.", "anchors": ["src/typed_graph.rs: commit, do_commit, redirect_links_vec, merge_nodes, modify_node, update_node, remove_node, apply_bidirectional_links, check_link_type"]}
{"id": "C59", "title": "Transactions on different parts of a graph can be committed in any order", "statement": "Take two transactions built for the same graph, possibly by different threads. Let each change only nodes of its own set: the nodes it inserts, mutates, updates or removes, the nodes that link to a node it redirects or removes, and the other ends of the bidirectional links that it adds or removes. If the two sets have no common node, and neither transaction leaves links to a node that the other one redirects or removes, then committing the first and then the second gives the same nodes (up to the iteration order of sets) as committing them in the other order. Moreover, in a program without dangling links, if each of them could be committed on its own, neither removes a node that the other one mentions, and their closures keep variants, then both orders return: neither commit makes the other one panic. The same holds for any number of transactions with pairwise disjoint sets: committed in any order, all commits return, and every node is as its own transaction alone would have left it.", "quantifier": "all declarations, all reachable graphs, all pairs of pending transactions with arbitrary operations and closures that redirect each node at most once per kind, whose closures do not look at the order of sets, and that let no Vec with an opposite or an annotation hold a node twice", "why_tests_cant": "The order in which threads hand in their transactions is a schedule; the claim ranges over all graphs, all pairs of transactions and all closures, and bidirectional completion and redirects reach beyond the nodes that a transaction names.", "anchors": ["src/typed_graph.rs: commit, do_commit, redirect_links_vec, merge_nodes, modify_node, update_node, remove_node, apply_bidirectional_links", "README.md: Transaction"]}
{"id": "C60", "title": "commit_checked reports exactly the failed checks", "statement": "Take a transaction for which commit would return, and at no stage of which a Vec link field holds the same node twice. commit_checked then returns the same graph, or it panics for one of three reasons: checks have returned Err, and the panic names only such checks and at least one; a check function has itself panicked; or a node check is registered and a node with links to other nodes has been removed (C31). If neither of the last two applies, the names in the panic are exactly those of the node checks that return Err on some node that gained or lost a link, then those of the link-add checks that return Err on some new link, then those of the link-remove checks that return Err on some new link (C30), each part in the order of the names, whatever the order of registration; and if there is no such check, commit_checked returns.", "quantifier": "all declarations, all reachable graphs, all transactions with arbitrary operations and closures, all registered check functions including panicking ones", "why_tests_cant": "Check functions are arbitrary user code and the report depends on every changed node and link of an arbitrary transaction; a test sees some checks on some transactions.", "anchors": ["src/typed_graph.rs: commit_checked, check_change", "src/typed_graph/check.rs: GraphCheck, NodeCheckFunc, LinkCheckFunc"]}
{"id": "C61", "title": "Programs behave like a machine without the internal data structures", "statement": "Reasoning about programs can use a machine whose state is: for every context, the set of indices used so far; for every graph, the map from indices to nodes that get shows; for every transaction, its pending operations and, for each index, whether it is unknown, reserved, handed out untyped or filled. Every API call (creating contexts, graphs and transactions, every transaction method, merge, commit, commit_checked, give_up and drops, switch_context, deserialize_graph) of every program changes the objects of the program only in a way the machine allows: returned indices are new; a call panics only if the machine lists a reason for it, and must return if the machine requires it; a commit that returns has the documented effect on the map and has added only permitted links, and one with checks only what the checks accepted. So what is proved of the machine holds of every program, for example: no two graphs or transactions of one context ever hold the same index. Besides the order of iteration, len, is_empty, iter and serialization reveal nothing of a graph but the map.", "quantifier": "all declarations accepted by the macros, all finite sequences of API calls on any number of contexts, graphs and transactions with arbitrary arguments and closures; programs that do not go on with a graph whose commit has panicked, and that merge graphs in debug builds only", "why_tests_cant": "It relates every state that any program can reach to a state of the machine; a test follows single programs.", "anchors": ["src/typed_graph.rs: Graph, Context, commit, commit_checked, switch_context", "src/typed_graph/transaction.rs: Transaction", "src/typed_graph/serialize.rs: deserialize_graph"]}
{"id": "C62", "title": "switch_context while other threads use the new context", "statement": "switch_context draws one index per node from the new context, and other threads may draw indices in between. Whatever they draw, switch_context returns a graph that is isomorphic to the old one (links internal, every bidirectional link answered, annotations satisfied), its nodes have exactly the indices that this call drew, in the order of iteration, and no other thread got any of them. The schedule does not change anything but the values of the indices.", "quantifier": "all declarations accepted by the macros, all graphs a program can reach, all interleavings of any number of threads drawing fewer than 2^64 indices", "why_tests_cant": "Schedules cannot be enumerated; the failing schedules need another thread to draw an index between two insertions of the call.", "anchors": ["src/typed_graph.rs: Graph::switch_context", "src/id_distributer.rs: IdDistributer::alloc", "src/cate_arena.rs: CateArena::insert"]}
{"id": "C63", "title": "Display and Debug write the whole graph", "statement": "Displaying a graph writes one entry 'index: node' for every node, in the order of iteration, and nothing else. Debug writes in addition, for every node, exactly the places that link to it. If nodes are written on single lines, the text determines the graph as far as the texts of the nodes do: two graphs with the same text have nodes with the same texts under the same indices.", "quantifier": "all declarations accepted by the macros, all graphs a program can reach, all ways of writing nodes and sources", "why_tests_cant": "Unbounded sizes and histories; that a text is unambiguous is a statement about all pairs of graphs.", "anchors": ["src/typed_graph/display.rs: Display for Graph", "src/typed_graph/debug.rs: Debug for Graph", "src/typed_graph.rs: Display for NodeIndex"]}
{"id": "C64", "title": "Closures may have side effects", "statement": "A closure given to mutate or update may read and change anything it has captured (counters, logs, random numbers, state shared with other closures). On a new node of the transaction it runs at once, exactly once. Otherwise it runs in the commit: first the closures of mutate, then those of update, each at most once and in call order, all of them if the commit returns; a panicking closure ends the sequence. The commit depends on nothing but the nodes the closures leave, so every graph and every commit of such a program is a graph and a commit of a program whose closures are plain functions, and everything else promised about commits holds for it.", "quantifier": "all declarations, all programs with any number of contexts, graphs and transactions, all closures with any state and any effect on it, both build profiles", "why_tests_cant": "Quantifies over all closures with arbitrary state and over all histories.", "anchors": ["src/typed_graph.rs: do_commit, modify_node, update_node", "src/typed_graph/transaction.rs: mutate, update", "src/cate_arena.rs: update_with"]}
{"id": "C65", "title": "A misspelt name in a declaration is a compile error", "statement": "A node_enum! block compiles only if every variant, link, link group and variant group that group!, bidirectional! and link_type! mention has been declared: groups list existing variants, the two sides of a bidirectional line and an annotation name at least one variant, and every variant they stand for has a link or link group of that name. Conversely a block whose names are all declared, and declared once, compiles. Declarations that compile need no further inspection: the names mean the same thing to iteration, bidirectional links and type annotations.", "quantifier": "all declarations: any number of structs, fields, link groups, phantom groups, variant groups, bidirectional lines and type annotations", "why_tests_cant": "A test compiles one declaration; the claim is about every declaration, accepted or rejected.", "anchors": ["ttgraph_macros/src/lib.rs: node_enum, typed_node", "ttgraph_macros/src/typed_node.rs: make_log_mirror", "ttgraph_macros/src/group.rs: make_in_group", "ttgraph_macros/src/bidirectional.rs: check_bidirectional_links, make_bidirectional_link", "ttgraph_macros/src/link_check.rs: make_check_link_type"]}
{"id": "C66", "title": "Declarations are read as they are written", "statement": "node_enum! accepts exactly: an enum whose variants have one unnamed field each, followed by any number of bidirectional!{v.l <-> w.m, ..}, group!{g{v, ..}, ..} and link_type!{v.l: w, v.l: {w, ..}, ..} blocks in any order, with commas between entries and an optional one at the end. The declaration it acts on consists of all the entries of these blocks, each as written, in the order in which they are written; no entry is dropped, merged or misread, and anything else is a compile error. In the same way #[derive(TypedNode)] reads the named fields in order, the names in every #[group(..)] of a link field and the names in #[phantom_group(..)], and rejects groups on other fields. Every set of declarations can be written.", "quantifier": "all sequences of tokens, of any length and nesting; all structs", "why_tests_cant": "A test parses one text; the claim is about every text, accepted or rejected.", "anchors": ["ttgraph_macros/src/lib.rs: node_enum, typed_node", "ttgraph_macros/src/bidirectional.rs: BidirectionalLink, BidirectionalLinkVec, get_bidirectional_links", "ttgraph_macros/src/group.rs: NamedGroup, NamedGroupVec", "ttgraph_macros/src/link_check.rs: TypeAnnotation, TypeAnnotationVec"]}
{"id": "C67", "title": "Every field of node indices is a link", "statement": "A field of a TypedNode struct whose type is NodeIndex, a Vec of NodeIndex, or a HashSet, BTreeSet, ordermap::OrderSet or indexmap::IndexSet of NodeIndex is a link of that kind, however the type is written (the documentation names `ttgraph::NodeIndex`, `Vec::<ttgraph::NodeIndex>` and others as acceptable). It is never taken for a link of another kind.", "quantifier": "all structs, all ways to write a type by paths, all sets of imported names", "why_tests_cant": "There are unboundedly many combinations of imports and spellings; the tests use a handful of them. A spelling that is not recognised is not an error: the field silently becomes data and its links are neither tracked, redirected nor removed.", "anchors": ["ttgraph_macros/src/lib.rs: typed_node (direct_paths, set_paths, vec_paths)", "src/lib.rs: documentation of links"]}
{"id": "C68", "title": "The cargo feature `debug` changes nothing but checking", "statement": "Turning the default feature `debug` off only removes the reports made for debugging (check_change, checks of transactions): every commit, switch_context and deserialization that returns does the same with and without the feature, and a commit that panics without the feature panics with it, for the same reason.", "quantifier": "all declarations, all reachable graphs and transactions, both build profiles", "why_tests_cant": "The tests run with one choice of features, and agreement of two builds has to hold for every history. The crate does not even build without the feature at this commit (`use check::*` names a module that is compiled only with it), so no test can compare the two; the model takes the conditional parts of the code as written.", "anchors": ["src/typed_graph.rs: LogicalLinkRecorder/SourceType add_link, remove_link under #[cfg(not(feature = \"debug\"))]", "src/typed_graph.rs: commit, switch_context, do_deserialize", "src/typed_graph/check.rs: #![cfg(feature = \"debug\")]", "Cargo.toml: [features]"]}
{"id": "C69", "title": "What deserialize_graph makes of an arbitrary file", "statement": "deserialize_graph either panics or yields a graph that could have been built through the API. It returns exactly when no index is used twice, no direct field would have to answer two different nodes, and every link that only a Vec field can answer is answered in the file. The graph has exactly the listed nodes under their indices with their data and links, plus the missing opposite links; nodes of one variant are iterated in the order of the file; the graph belongs to the context id of the file and later inserts get indices above all those of the file. No node is under the empty index, links obey link_type!, and every link leads to a node of the file.", "quantifier": "all declarations, all lists of nodes with indices, in any order and with any links, whether or not they were written by this library; as long as the counter does not overflow (otherwise see C87)", "why_tests_cant": "The tests only read back what serialization has written. A file may be edited, truncated or made by another program; the claim ranges over all of them.", "anchors": ["src/typed_graph/serialize.rs: deserialize_graph", "src/typed_graph.rs: do_deserialize, merge_nodes, apply_bidirectional_links", "src/typed_graph/cate_arena.rs: new_from_iter"]}
{"id": "C70", "title": "Writing and reading a graph again changes nothing", "statement": "Once a graph has been read by deserialize_graph, writing it and reading the result always succeeds and yields the same graph: same context id, same nodes with the same data and links (sets may be ordered differently), same iteration order, and a context that continues with the same index. Whatever bidirectional links the first reading had to add, later readings add none.", "quantifier": "all declarations, all files with well-typed nodes that are read, all graphs of programs", "why_tests_cant": "Stability has to hold for every file and every graph, including those in which opposite links are missing; a test shows it for one.", "anchors": ["src/typed_graph/serialize.rs: deserialize_graph, GraphSerializer::from, Serialize for Graph", "src/typed_graph.rs: do_deserialize, apply_bidirectional_links"]}
{"id": "C71", "title": "A transaction can be committed in pieces", "statement": "Cut a transaction in two along the documented order of operations: the first piece has the redirect_links and possibly the inserted nodes, the first mutations, the first updates, the redirect_all_links and the first removals; the second piece has the rest. Committing the first piece and then the second gives exactly the same graph as committing the whole transaction, or the same panic.", "quantifier": "all declarations, all graphs, all transactions without unfilled allocations, all points at which they can be cut, both build profiles", "why_tests_cant": "The claim is an equation between one commit and two commits for arbitrary transactions and closures; a test compares a few.", "anchors": ["src/typed_graph.rs: commit, do_commit", "src/typed_graph/transaction.rs: Transaction"]}
{"id": "C72", "title": "A node can be put in the place of another", "statement": "Committing a transaction that calls redirect_all_links(a, b) and remove(a) (and perhaps inserts nodes, b among them) puts b in the place of a: afterwards there is no node a, every other node is still there with its variant, data and Vec lengths, each place that held a holds b and every other place holds what it held before. Nothing is left without a target. Fields mentioned in bidirectional! lines follow the same rule, and b alone gets the links that answer those it has taken over. Such a commit returns if a is a node, the link types permit b wherever a was linked, and b has room to answer.", "quantifier": "all declarations with distinct names (the parts on opposites: no bidirectional Vec field holds a node twice during the commit), all reachable graphs, all a and b different from each other, b not the empty index; that the commit returns: no field has two possible opposites on one variant, no pair is connected twice and no annotated Vec holds a node twice", "why_tests_cant": "It combines redirection, removal and bidirectional completion; a test sees particular graphs, while rewriting passes rely on it for whatever nodes link to a, including a itself, b, sets that already hold b and Vecs that hold a many times.", "anchors": ["src/typed_graph.rs: commit, redirect_links_vec, remove_node", "src/transaction.rs: redirect_all_links, remove"]}
{"id": "C73", "title": "Vec fields in bidirectional! lines", "statement": "If a bidirectional! line names a Vec field (README.md says that this is not supported, but the macros accept it), completion never changes a Vec: it is as the transaction has left it. A commit that returns has added and removed the opposites that are held in direct fields and sets, as for other lines, and every added link has its opposite; so the two sides always agree. A commit that would have to change a Vec (it removes a link whose opposite is in a Vec, or adds one whose opposites can only be in Vecs and are not there) panics; every other valid transaction is committed.", "quantifier": "all declarations with distinct names, all reachable graphs and transactions", "why_tests_cant": "A test shows that a particular commit with such a line panics or not; whether every commit that returns leaves the two sides in agreement depends on all ways in which a Vec can be filled, shortened or redirected.", "anchors": ["ttgraph_macros/src/bidirectional.rs: make_bidirectional_link", "src/typed_graph.rs: commit, apply_bidirectional_links", "README.md:240"]}
{"id": "C74", "title": "A commit reaches only the nodes it concerns", "statement": "A commit leaves a node alone if the transaction neither inserts, changes nor removes it, the node holds no link to a node that is redirected or removed, and no link to it is added or removed in a field with a declared opposite: the index has the same node before and after, up to the iteration order of its sets. And what a commit makes of the nodes it concerns depends on these nodes only: committed to another graph that has the same nodes in that part, and no other links to redirected or removed nodes, the same transaction does the same to this part and nothing to the rest.", "quantifier": "all declarations with distinct names, all reachable graphs, all transactions (second part: each node redirected at most once per kind, closures that do not look at the order of sets), all sizes of the rest of the graph; no bidirectional Vec field holds a node twice during the commit", "why_tests_cant": "The claim is about everything a commit does not touch, in graphs of any size; a test compares only the nodes of its own small graph.", "anchors": ["src/typed_graph.rs: commit, do_commit, redirect_links_vec, remove_node, apply_bidirectional_links"]}
{"id": "C75", "title": "Insertions can be undone by removals", "statement": "A transaction that only removes nodes removes exactly these nodes and the links to them, changes nothing else, and its commit returns whenever the nodes are there. So insertions can be undone: if a committed transaction only inserted nodes that nothing in the graph was linked to, then committing a transaction that removes all the inserted nodes returns and gives back the nodes as they were before, up to the iteration order of sets; the links that bidirectional! lines added to old nodes are gone too.", "quantifier": "all declarations with distinct names, all reachable graphs, all numbers of inserted nodes with any links among themselves and to old nodes; no bidirectional Vec field holds a node twice during the commit; that the commits return: no annotated Vec holds a node twice", "why_tests_cant": "The nodes inserted, their links and the old nodes that get opposite links are arbitrary, and the whole graph has to be the same afterwards.", "anchors": ["src/typed_graph.rs: commit, remove_node, merge_nodes, apply_bidirectional_links", "src/typed_graph/transaction.rs: insert, remove"]}
{"id": "C76", "title": "mutate and update are interchangeable", "statement": "For the nodes of a graph it does not matter whether a change was given to mutate or to update, nor in which order changes of different nodes were given. If two transactions have the same operations otherwise, and every node gets the same changes in the same order (all those of mutate come before all those of update), then one commit returns exactly if the other does, and the nodes afterwards are the same up to iteration orders. In particular mutate(i, f) can be replaced by update(i, f) as long as no update of i is pending. And changes that change nothing leave the graph as it was.", "quantifier": "all declarations in which a field has one opposite per variant, all reachable graphs, all lists of closures; no bidirectional Vec field holds a node twice during the commit; no pair of fields is connected twice, and no annotated Vec holds a node twice on the way", "why_tests_cant": "The closures are arbitrary functions, and the two methods go through different code (one edits a node in place, the other takes it out and puts a new one in).", "anchors": ["src/typed_graph.rs: modify_node, update_node, do_commit", "src/typed_graph/transaction.rs: mutate, update"]}
{"id": "C77", "title": "Closures may use the API on other objects", "statement": "A closure given to mutate or update may call the API while it runs: insert into other transactions, also of the same context, commit them to other graphs, move or drop graphs, with closures that do the same in turn. The call that runs the closure does not notice: the graph and the transaction it works on stay as they are, and the whole is equivalent to making the calls of the closures first and then the outer call with closures that only return the same nodes. So every graph that such a program has at any time is one that a program without nested calls can have, and every commit, at any depth, does what a commit of such a program does.", "quantifier": "all declarations, all programs with any number of contexts, graphs and transactions, any depth of nesting, all closures that Rust's ownership rules permit (they cannot use the graph and the transaction of a call in progress), also panicking ones", "why_tests_cant": "The calls inside a closure and the moments at which they happen are arbitrary, they share the index counter with the outer commit, and the nesting has no bound.", "anchors": ["src/typed_graph.rs: commit, commit_checked, do_commit, modify_node, update_node", "src/typed_graph/transaction.rs: mutate, update", "src/cate_arena.rs: update_with"]}
{"id": "C78", "title": "Which check functions commit_checked calls, and in which order", "statement": "Check functions may have side effects, so it matters which calls are made. commit_checked first does all that commit does, and runs all closures; if that panics, no check function is called. Then each node check, in the order of the names, is asked about the nodes that have got or lost a link by the transaction itself, each node once, with the node as it is after the commit, until it returns Err or panics; then each link-add check is asked about the new links in the same way, and then each link-remove check (also about the new links, see C30). A check that has returned Err is not asked again, and the next one goes on; after a panic nothing is called. If all have been asked, commit_checked returns the graph of commit if none returned Err, and otherwise panics with the names of those that did, in the order of the calls. The state of the program is changed by these calls only. A program whose checks have side effects reaches no graph that a program with plain commits cannot reach.", "quantifier": "all declarations, all programs, all transactions, all sets of check functions with arbitrary effects on the state of the program (those that use the graph or the transaction being committed are excluded by Rust), also panicking ones; no Vec field holds a node twice during the commit (see C28-C31)", "why_tests_cant": "The functions, their effects and the changes they are asked about are arbitrary; the answers may depend on what earlier calls have left.", "anchors": ["src/typed_graph.rs: commit_checked, check_change", "src/typed_graph/check.rs: GraphCheck, NodeCheckFunc, LinkCheckFunc"]}
{"id": "C79", "title": "An earlier state can be restored", "statement": "Let g be a state that a graph has had, and let all nodes of g still exist, with their variants. Then a transaction that writes the old values of the nodes that differ, by mutate or update in any mixture, and removes the nodes that g does not have, leads exactly back to g (up to the iteration order of sets): the completion of bidirectional links neither adds nor removes anything, although the links that come and go have opposites. More generally it leads to any state without dangling links in which bidirectional links are symmetric. If the links of that state have the declared types, the closures do not panic and no Vec would have to be completed, the commit returns.", "quantifier": "all declarations with distinct names; all states g and all graphs that contain the nodes of g; all transactions of that form; no bidirectional Vec field holds a node twice during the commit. For states of the program itself: programs in which closures keep variants and transactions leave no dangling links, declarations in which no field has two possible opposites on one variant; that the commit returns: the same and no pair connected twice", "why_tests_cant": "What has happened in between is arbitrary, and so are the links that the transaction adds and removes; any of them could trigger a wrong completion.", "anchors": ["src/typed_graph.rs: commit, mutate_node, update_node, remove_node, apply_bidirectional_links", "src/typed_graph/transaction.rs: mutate, update, remove"]}
{"id": "C80", "title": "The graphs of careful programs are exactly the well-formed ones", "statement": "Call a state (which nodes there are under which indices, with which fields) well formed if it has finitely many nodes that fit the declaration, none under the empty index; every link leads to a node or is empty; every link with a declared opposite has it; every link has a declared type; and a Vec field that is bidirectional or annotated holds no node twice. Call a program careful if the transactions it commits link only to existing or new nodes, its closures keep variants, it neither loads nor moves graphs nor goes on with one whose commit panicked, and such Vec fields hold no node twice on the way. Then every graph of a careful program is well formed, after any history. Conversely every well-formed state, however its nodes link to each other (cycles included), can be built by a careful program with a single commit: allocate the indices, fill them back and commit; this does not panic, and bidirectional completion adds nothing.", "quantifier": "every declaration in which each name is annotated once, annotations fit the bidirectional lines and no link has two possible opposites; every state; every history of a careful program; both build modes", "why_tests_cant": "The first half is an invariant over all histories, the second an existence claim about each of infinitely many states.", "anchors": ["src/typed_graph.rs: Graph::commit, Graph::do_bidirectional", "src/typed_graph/transaction.rs: Transaction::alloc_untyped, Transaction::fill_back_untyped", "ttgraph_macros/src/node_enum.rs: check_link_type"]}
{"id": "C81", "title": "The order in which things are declared does not matter", "statement": "Take two node_enum! blocks with the same variants and groups, listed in any order, and the same bidirectional! and link_type! lines, written in any order, repeated, or (for bidirectional!) the other way around. Then one compiles if and only if the other does; get_links_by_name, get_links_by_group, data_ref_by_name, in_group and check_link_type return the same; iter and iter_group yield the same items (perhaps in another order) and len is the same. A program run with the one and with the other has the same nodes in its graphs and the same pending operations in its transactions at every moment, as long as the commits return in both; if no link has two possible opposites on one variant, a commit that makes sense returns in both or in neither. If the variants are in the same order, a commit returns the same graph or panics in the same way whatever the opposites, and if moreover no link has two possible opposites on one variant, every call does exactly the same, even in the order of iteration.", "quantifier": "every pair of declarations that differ in this way (names declared once), every graph, transaction, history and build mode; for the comparison of whole programs with variants in different order, bidirectional Vec fields hold no node twice on the way", "why_tests_cant": "A test compiles one declaration. The claim ranges over all reorderings of all declarations and all programs that use them.", "anchors": ["ttgraph_macros/src/bidirectional.rs: expand_bidirectional_links, make_bidirectional_link", "ttgraph_macros/src/link_check.rs: expand_group, make_check_link_type", "ttgraph_macros/src/node_enum.rs: make_node_enum", "ttgraph_macros/src/cate_arena.rs: make_cate_arena", "src/typed_graph.rs: Graph::commit, Graph::do_bidirectional"]}
{"id": "C82", "title": "A declaration may spell a link differently from the struct", "statement": "The macros turn the names of links and link groups into camel case, so my_link and myLink in bidirectional! and link_type! mean the same field. If no two names become the same, links have the opposites and the permitted types that are declared for their names. If the lines use other spellings than the structs, but one spelling for each name of a variant, the opposites and permitted types are those of the declaration with the names as the structs have them; for the permitted types even several spellings do no harm. If the lines of bidirectional! use several spellings of one name, a field has the opposites of those lines only that use the spelling that comes first in the dictionary (so a line can hold in one direction only).", "quantifier": "every declaration that compiles and whose names are declared once, every way of changing the case of names, every pair of fields", "why_tests_cant": "A test compiles one declaration with one spelling. The claim ranges over all declarations and all spellings of their names, and the failing case is silent: it compiles.", "anchors": ["ttgraph_macros/src/bidirectional.rs: make_bidirectional_link", "ttgraph_macros/src/link_check.rs: make_check_link_type", "ttgraph_macros/src/typed_node.rs: make_get_source, to_log_mirror_enums, LoGMirror::to_links", "ttgraph_macros/src/utils.rs: upper_camel"]}
{"id": "C83", "title": "A program may catch panics and go on", "statement": "A program that catches the panics of transaction methods, of merge, and of a commit to a graph of another context (debug build) reaches no state that it could not reach without these panics; so every other guarantee still holds for it. The exception is a panic in an update closure on a node of the transaction: its index is then neither a pending node nor waiting to be filled, and yet fill_back accepts it. Whatever is caught, update closures included, indices stay unique, a node belongs to one object, the reverse index of every graph stays exact, methods have their documented effect, and commits perform exactly the pending operations.", "quantifier": "every program, every sequence of calls and caught panics, whatever panicking closures have made of their nodes", "why_tests_cant": "A test catches one panic at one point. The claim ranges over all points at which a call may panic, all states of the objects at that moment, and all continuations of the program.", "anchors": ["src/typed_graph/transaction.rs: fill_back, fill_back_untyped, mutate, update, merge", "src/cate_arena.rs: fill_back, update_with, modify_with", "src/typed_graph.rs: do_commit"]}
{"id": "C84", "title": "Programs whose threads go on during a switch_context", "statement": "switch_context draws the new indices one at a time, and other threads may call anything in between, including other calls of switch_context. Throughout, the objects of the program keep their guarantees: indices are unique, a node belongs to one object, back-links are exact, methods have their documented effect, and commits perform exactly the pending operations. What a switch_context has drawn is reserved for it until it returns. If it returns, every node has the index drawn for it and keeps its variant, data and kinds of links. The graph it returns is isomorphic to the old one, with the drawn indices in the order of iteration, provided that no draw collides with an old index, in particular if the draws are above all old indices (the full claim, without this proviso, is false). The model in which switch_context is a single step is the special case without interruption. The other call that draws several indices, extend, is a sequence of inserts, which may be interrupted in the same way.", "quantifier": "every program with any number of threads, every interleaving of their calls and of the single draws of any number of switch_context calls", "why_tests_cant": "A test sees a few schedules. The claim ranges over all points between two draws of a switch_context and everything that other threads do there.", "anchors": ["src/typed_graph.rs: switch_context, merge_nodes", "src/cate_arena.rs: insert", "src/id_distributer.rs: alloc"]}
{"id": "C85", "title": "Only the net effect of a transaction counts", "statement": "The nodes of a graph after a commit depend only on its nodes before and on the net effect of the transaction's operations on them, not on which operations achieve it, in which order, with which intermediate states, or on the history of the graph. If each field has at most one declared opposite on each variant, this is also true of whether the commit panics, for transactions whose operations make sense. A transaction whose operations cancel out is committed and changes nothing, whatever the declarations. With commit_checked, checks that do not look at the order of sets let two transactions with the same net effect pass or refuse both, naming the same checks; a transaction whose operations cancel out passes all checks, none of which is run.", "quantifier": "all pairs of programs that arrive at graphs with the same nodes and at transactions with the same net effect; all declarations", "why_tests_cant": "There are unboundedly many transactions with the same net effect: redirections instead of mutations, detours, closures that undo each other. The link changes are recorded along the way, so every detour exercises the bookkeeping differently.", "anchors": ["src/typed_graph.rs: do_commit, LinkChangeRecorder, apply_bidirectional_links, check_link_type"]}
{"id": "C86", "title": "Threads that catch panics while others are in the middle of a switch_context", "statement": "A program with several threads may do both: catch the panics of transaction methods, update closures included, of merge and of commits, and go on with other calls while threads are in the middle of a switch_context. A caught panic changes nothing but the object of the call that panicked. Throughout, indices are unique, a node belongs to one object, back-links are exact, methods have their documented effect, and commits perform exactly the pending operations. What a switch_context has drawn stays reserved for it, and if it returns, every node has the index drawn for it and keeps its variant, data and kinds of links. A switch_context that panics, and whose panic is caught, takes its graph with it and nothing else.", "quantifier": "every program with any number of threads, every interleaving of their calls, of caught panics and of the single draws of any number of switch_context calls", "why_tests_cant": "A test catches one panic in one schedule. The claim ranges over all states in which a call may panic, all points between two draws at which this happens, and all continuations.", "anchors": ["src/typed_graph/transaction.rs: fill_back, fill_back_untyped, mutate, update, merge", "src/cate_arena.rs: fill_back, update_with, modify_with, insert", "src/typed_graph.rs: switch_context, merge_nodes, do_commit", "src/id_distributer.rs: alloc"]}
{"id": "C87", "title": "Programs do not notice that counters are machine words", "statement": "The counter of a context is a machine word that wraps around. A program that draws fewer indices from a context than a machine word has values behaves as if the counter were unbounded: all guarantees hold, and every call has the same effect, also if other threads draw indices during a switch_context, and if threads catch panics. (False for programs that read files: if a file has a node under the largest index, the very next index is the empty one in a release build, and the one after that may be the index of a node of the file, which a commit then silently overwrites; in a debug build, insert panics, but the counter has wrapped around all the same. True as long as the largest index in the files and the number of indices drawn are together below the number of values of usize.)", "quantifier": "every program, every word size (32-bit, 64-bit), with and without overflow checks, all files", "why_tests_cant": "Nobody can draw 2^64 indices in a test, and a test that reads a file sees only the indices of this file.", "anchors": ["src/id_distributer.rs: alloc, from_count", "src/typed_graph/serialize.rs: deserialize_graph", "ttgraph_macros/src/cate_arena.rs: alloc, alloc_untyped", "src/typed_graph.rs: switch_context"]}
{"id": "C88", "title": "The order of iteration does not depend on the values of indices", "statement": "Two executions of the same program whose contexts hand out different indices (because other parts of the program draw from the same contexts, or the hash seeds differ) iterate over corresponding nodes in the same order: the n-th node that iter and iter_type yield in one execution corresponds to the n-th one in the other, and so do the n-th nodes of the serialized files. This remains so when the graphs move to other contexts: switch_context numbers corresponding nodes in the same order, and afterwards the graphs still correspond. (The last sentence is false: if an old index of the graph is also one of the new ones, switch_context may lose a link, and whether this happens depends on the values of the indices. It is true if no indices collide in either execution.)", "quantifier": "all pairs of executions with corresponding calls, all index correspondences that keep the empty index, all interleaved calls on other objects; bidirectional! lines name no Vec field, or at least no such Vec holds a node twice during a commit; graphs are read from corresponding files", "why_tests_cant": "Ranges over every way the shared counters can be advanced by other parts of the program, over all hash orders and over all programs. A test sees one numbering.", "anchors": ["ttgraph_macros/src/cate_arena.rs: iter, insert, remove, update_with", "src/typed_graph.rs: iter, iter_type, iter_group, switch_context, do_commit", "src/typed_graph/serialize.rs: serialize_graph, deserialize_graph"]}
{"id": "C89", "title": "A saved graph can be loaded and the program goes on", "statement": "A program saves a graph, and another program (or a later run) loads it with deserialize_graph and from then on makes the calls that the first one would have made. The two graphs stay the same: nodes that were saved have the same indices, nodes inserted later have indices that corresponding calls return, all nodes have corresponding data and links, transactions have corresponding pending operations, and iteration yields corresponding nodes in the same order. What else the two programs do, before and in between, does not matter.", "quantifier": "all declarations, all programs, all graphs whose links are internal and have their opposites (in particular those of careful programs, see C12, C22, C33), all continuations; iteration order: closures kept variants before the graph was saved; bidirectional! lines name no Vec field, or at least no such Vec holds a node twice during a commit", "why_tests_cant": "A round trip in a test compares two graphs at one moment. The claim is about everything that can be done with them afterwards, in all programs, although the loaded context hands out other indices than the original one.", "anchors": ["src/typed_graph/serialize.rs: serialize, deserialize_graph, do_deserialize", "src/id_distributer.rs: from_count", "src/typed_graph.rs: commit, switch_context, iter"]}
{"id": "C90", "title": "A panic of commit says what is wrong", "statement": "If commit panics, its panic names one of ten mistakes and the transaction really has that mistake: an allocated index is unfilled (debug builds); redirect requests of one kind form a loop; a node whose links are to be redirected, that a mutate or update closure leaves a link to, that a closure is to be applied to, or that is to be removed, does not exist; a direct bidirectional field would have to hold two nodes; the opposite of a new link is not determined; a Vec would have to be changed to complete links; a link violates its type annotations. The only other panics are those of the user's own closures, on the very nodes they are applied to. No internal failure (a missing entry of the back-link table, an unmatched field, a position out of bounds, an endless loop, a context mismatch) is ever seen. commit_checked panics in the same way, or, where commit would return, because of its checks. In a program without dangling links no mistake is overlooked: commit panics exactly if the transaction has one.", "quantifier": "all declarations the macros accept, all graphs and transactions that a program can pair up, all closures and check functions, debug and release builds; that the completion panics are true: bidirectional! lines name no Vec field, or no such Vec holds a node twice during the commit; that no mistake is overlooked: the conditions of C58", "why_tests_cant": "Tests provoke particular mistakes and look at the message. That a message is never misleading, and that no other panic exists, is about all histories of a graph and all transactions.", "anchors": ["src/typed_graph.rs: commit, commit_checked, do_commit, modify_node, update_node, remove_node, redirect_links, redirect_links_vec, apply_bidirectional_links, check_link_type", "src/typed_graph/macro_traits.rs: add_link, remove_link"]}
{"id": "C91", "title": "A program can be run again", "statement": "The order in which a hash set is iterated depends on random seeds, and the ids of contexts are random. Neither influences a program: two runs of the same program have, as long as the calls return, after every call the same contexts, graphs and transactions; the contexts have handed out the same indices in the same order; the graphs have the same nodes at the same indices, with the same data and links, and get, iter, iter_type, iter_group and the written file yield them in the same order; the transactions have the same pending operations. This includes switch_context when old and new indices collide: if links are lost, the same ones are lost in every run. Every call but a commit returns in one run exactly if it returns in the other, and so does a commit if no links dangle, with checks too if they do not look at the order of sets; if checks refuse, the panic names the same ones in every run. Hence a program without dangling links that once runs through without a panic always does, and ends with the same.", "quantifier": "all declarations the macros accept, all programs whose own closures and arguments do not depend on the order of sets, all orders in which each set may be iterated at each moment, all ids of contexts; bidirectional! lines name no Vec field, or no such Vec holds a node twice during a commit; that the calls return in both runs: every link has one declared opposite at most, and for commits the conditions of C58, with checks also that no Vec holds a node twice during the commit; panics are not caught", "why_tests_cant": "A test that passes has seen one or a few seeds. Whether some other order of some set, at some point of a long history, would change an index, an iteration or a link is a statement about all orders and all histories.", "anchors": ["src/typed_graph.rs: commit, switch_context, iter, iter_type, iter_group", "src/typed_graph/transaction.rs: Transaction", "src/typed_graph.rs: Context", "src/typed_graph/serialize.rs: serialize, deserialize_graph", "ttgraph_macros/src/typed_node.rs: link accessors of the generated nodes"]}
{"id": "C92", "title": "Objects that no call brings together do not influence each other", "statement": "Divide the contexts, graphs and transactions of a program into parts so that no call names objects of two parts. Then the parts do not influence each other: after the calls of all parts, in any interleaving, every context, graph and transaction of a part is exactly what it would be if the calls of its part had been the only ones, and its contexts have handed out the same indices; a call returns exactly if it would then return, also when calls of other parts panicked; and any two interleavings of the same calls of each part end with exactly the same objects. In particular two contexts with their graphs and transactions can be used side by side. The same is true of threads that are in the middle of a switch_context while threads of other parts go on: a switch_context during which its own part does nothing else ends as if it had been a single step.", "quantifier": "all declarations, all programs, all divisions of their objects into parts that no call crosses, all interleavings of the calls; also calls that panic, and panicking commits that are caught", "why_tests_cant": "A test runs one interleaving of two short programs. That no call ever reads or writes something outside the objects it names is a statement about all programs and interleavings.", "anchors": ["src/typed_graph.rs: Graph, Context, commit, switch_context", "src/typed_graph/transaction.rs: Transaction, merge", "src/typed_graph/serialize.rs: deserialize_graph"]}
{"id": "C93", "title": "A graph of another context can be moved into a graph", "statement": "To put a graph other of another context into a graph, the documentation has the program call other.switch_context(ctx), start a transaction, trans.merge(other), and graph.commit(trans). If both graphs are complete in themselves (links lead to nodes of the graph or are empty, links have their declared opposites and satisfy their annotations, no bidirectional Vec holds a node twice), then none of the four calls panics; afterwards the graph holds exactly its own nodes, under their indices and with their data and links unchanged, and a copy of each node of the other graph under an index that was not in use, with the same data and with its links renamed to the copies; and it is complete in itself again, so that this can be repeated.", "quantifier": "all declarations, all programs, all pairs of graphs that they hold at one moment, all target contexts", "why_tests_cant": "Whether old and new indices get into each other's way depends on the counters of both contexts, the order of iteration and the links of both graphs.", "anchors": ["src/typed_graph.rs: switch_context, commit", "src/typed_graph/transaction.rs: merge (and its documented example)"]}
