# Formal model of envire_core: design

This file is written before the proofs.  It says what is modelled, how each
property of `properties.jsonl` is going to be stated and proved, what is trusted,
and (section 6) where reading the code already shows that it does not do
what a user would expect.  Sections marked *(log)* are extended while the work goes on.

## 1. Shape of the model

Everything is Lean 4, executable total functions, under `lean/Verif`:

| part | content |
|------|---------|
| `Verif/Model/*.lean` | the model: one definition per C++ function, each with a comment that cites the file and lines in `/repo` and names the simplifications |
| `Verif/Spec/*.lean` | small independent specifications (paths in an abstract graph, abstract machines, mirrors that replay events ...) that do not use the model's helpers |
| `Verif/Lemmas/*.lean` | invariants and helper lemmas |
| `Verif/Props/*.lean` | the property theorems `Cxx_...`, next to `example`s that show that the hypotheses can be met by a concrete non-trivial case |

### 1.1 Outcomes

C++ functions are functions `σ → Res σ α` with

```
inductive Res σ α | ok (a : α) (s : σ) | throw (e : Exn) (s : σ) | ub (reason : String)
```

* `throw e s`: a C++ exception; `s` is the state the caller sees afterwards, so
  that half-done changes stay visible ("exception safety" can be stated).
* `ub`: undefined behaviour in the sense of C++ *or* a failing `assert` (with
  NDEBUG the code goes on with a violated precondition).  It is a separate outcome and no
  theorem treats it as success.
* Loops whose termination is not structural are given fuel; running out of
  fuel is a separate outcome too (`ub "diverges"`/`none`) and termination is proved by showing that it does not occur.

### 1.2 The Boost layer (`Model/Boost.lean`)

`GraphBase = labeled_graph<directed_graph<F,E>, FrameId>` is modelled by a record:
list of vertices (descriptor, `vertex_index`, property) in insertion order, list of
edges (descriptor, source, target, property) in insertion order, the label map, the counters.
The out-edge list of a vertex is the sublist of edges with that source (all three Boost lists
append at the end).  Parallel edges are possible, as in Boost.  Descriptors are
numbers that are never reused (C++: addresses; the address of a deleted vertex may be
reused by a new vertex: *simplification*, stated at the definition; C99 shows when it makes
no difference).
F and E are arbitrary types with `setId/getId` resp. `inverse`, as the template parameters are.

Boost functions used and their assumed behaviour (trusted, recalled from the Boost documentation
and sources; no Boost is available in the sandbox): `add_vertex` on a labelled
graph returns the existing vertex if the label is present; `vertex(label)` is null
if absent; `edge(u,v)` returns the first out-edge of u with target v; `add_edge` always
appends (parallel edges allowed); `remove_edge(e)` erases one edge, erasing an edge
that is not in the graph any more is undefined; `degree` = in + out; `copy_graph` returns at once if there are no
vertices and otherwise writes to `vector(num_vertices)[vertex_index(v)]` for each v;
`directed_graph::add_vertex` gives increasing indices, `remove_vertex` does not renumber;
`breadth_first_search` colours and queue as documented, visitor callbacks in the documented order;
the assignment of a `labeled_graph` assigns the graph (new vertices and edges in the order of the old ones, with a map
from old to new vertices) and the label map as it is.

### 1.3 Events and handlers

`GraphEventPublisher::notify` called from a graph method appends the event *and a snapshot of the graph at that moment*
to a trace in the state.  So the graph model has passive subscribers (they
do not call back into the graph).  `Model/Reenter.lean` and `Model/ItemReenter.lean` repeat the operations with arbitrary handlers that
call the graph and throw (C92, C93), and prove that passive handlers give the first model back.  Re-entrant subscribe/unsubscribe/notify is modelled separately (`Model/Publisher.lean`)
where handlers may subscribe and unsubscribe.  Tree views are not passive: they are updated inline by the graph
(not through events), may throw, and are therefore part of the graph state.

### 1.4 Other parts

* BFS: a total function that yields the sequence of visitor callbacks; visitors are folds over it.
* Tree view: partial map vertex -> (parent, children), list of cross edges, root, publisher flag, list of emitted signals.
* Transforms: pair (time, pose), pose from an arbitrary group (exact arithmetic; `TransformWithCovariance` rounding and covariance are not modelled).
* Items: pointers (numbers) into a heap that stores type and frame name; frames map types to lists of pointers.
* Event queue, dispatchers, publisher lists, buffers, item map archives (token streams), bounding boxes (arbitrary linear order, `none` = Eigen's empty box is a special case of min > max), manager map, metadata map, escaping of strings.
* Threads: programs of lock / micro-step / unlock actions over a shared state, a scheduler that picks any enabled thread, recursive mutex with owner and depth.

## 2. Not modelled

Qt, vizkit3d, graphviz and OpenSceneGraph themselves (the calls to them are recorded as data), logging, the dynamic loading of libraries,
`orocos_cpp`-style typelib files, URDF/SDF style helpers, memory management (leaks, `delete`) except where a dangling access is the subject of a property,
floating point rounding, NaN, covariance, random UUID generation (`RandomGenerator`: ids are taken as inputs), CMake/test/bench code.

## 3. Trusted base

* Lean 4.33.0 kernel, Mathlib definitions used in statements (lists, `Finset`, groups, orders).
* Axioms: every theorem depends on at most `propext`, `Classical.choice`, `Quot.sound`; no own axioms, no `sorry`, no `native_decide`, no `bv_decide`.  Checked with `#print axioms` in scratch files and by the gate.
* That the model definitions describe the cited code lines (manual reading), including the Boost/std behaviour in 1.2.
* The modelled code is exactly the set of functions cited in the definition comments in `Verif/Model`; section 2 lists what is left out.

### 3.1 What the mutation log shows

`seeded/LOG.jsonl` lists edits of model definitions and the theorems that no longer check.  For every edit the `example`s in the files of the
claim were evaluated with the edited model.  Where the verdict says that concrete examples of the claim come out false, the edited model
really behaves differently from what the claim says about that case.  Where it says that only the proof scripts show it, no
counterexample was found among the examples; a proof script may break although the statement is still true, so these entries are weaker
evidence.  Entries marked "no claim broken" were looked at and the statement still holds for the edited model; entries marked as repaired
programs are edits that correct the code, so that the theorem about the failure must break.

## 4. Proof methods

* *Invariant*: `WF` (labels = ids of live vertices, unique descriptors, endpoints live, pairs of inverse edges ...) is preserved by every call, by case analysis on the list operations; lifted to histories by induction over a list of commands.
* *Refinement*: abstraction function to a small machine + simulation per command + induction.
* *BFS*: invariant with a ghost level function (queue sorted by level, levels differ by at most one, finished vertices have no undiscovered successors), giving reachability, shortest paths and the classification of edges.
* *Replay*: an independent mirror folds over the trace; simulation per command.
* *Negations*: if the code violates the property, a theorem `Cxx_..._fails` gives a concrete history, and `Cxx_..._partial` proves the property under the smallest extra hypothesis found.

## 5. Plan per property

| id | model | statement / proof |
|----|-------|-------------------|
| C01 | Graph | WF invariant over all histories; bijection stated with containsFrame/getVertex/getFrameId results |
| C02 | Graph | WF invariant: existence, uniqueness, inverse property for every pair; histories without self edges, and for a ≠ b all histories (the graph without its self edges makes the same steps, Lemmas/NoSelf) |
| C03 | Graph | a ≠ b proved; a = b fails in every state (UB); invariant: a self edge stays for ever |
| C04 | Graph + abstract machine | simulation, induction over histories; with subscribed views a nondeterministic machine in which removals may throw after the edge is gone; exact again for histories without cycles; self edges: the same machine with three changes (`AGraph.StepL`), invariants `Paired g.ns` and `SelfTwo`; self edges are never removed (`GStep.self_kept`) |
| C05 | Graph | case analysis per call, state equality incl. trace; disconnectFrame with views may throw after removal (see 6) |
| C06 | Graph | decision logic with "has a neighbour" as specification |
| C07 | Graph | induction on the degree; fuel sufficiency = termination; with a self edge the call never returns normally; after every history, with subscribed views and self edges elsewhere: what is removed when it returns and when it throws |
| C08 | Graph + mirror | simulation over histories; all histories for an observer without checks |
| C09 | Graph/EnvireGraph + mirror | fold over edges with the published list as invariant; with self edges: how often each connection is sent |
| C10 | Graph | the vertex indices are the positions in the list of all frames ever created (`Spec/Slots`, from the events); copying works exactly if no frame was created after one that was removed since, else UB; later calls on the copy and on the original behave alike, with self edges by `SimL` (both are undefined or none is) |
| C11 | Graph | a ≠ b proved after every history; a = b fails in every state (property is p.inverse()) |
| C12 | Graph trace | snapshots; EdgeRemoved part fails in every such event (inverse edge still there); rest proved; self edges: the pairs of different frames |
| C13-C14 | BFS | see section 4; getFrames(a,a) = [] makes C14 partial |
| C15 | TransformGraph | product along the found path; a = a without edges fails |
| C16 | TransformGraph | telescoping product in a group; self edges: edges between different vertices still have inverses, child and parent differ by rank |
| C17 | TransformGraph | invariant "a pose assignment exists" + component argument |
| C18 | TransformGraph + view | fails for stale views; partial: up-to-date views (edges between child and parent exist); `C18_stale`: exact result for stale views whose frames all still exist (missing connections count as the identity); self edges: as for C16 |
| C19 | TransformGraph + Path | fails on the second call after InvalidPathException; partial for the first call / non-empty paths |
| C20-C22 | BFS + TreeView | fold of the visitor over the callbacks; self edges: the callbacks about them are filtered out, what remains is the search in the graph without them |
| C23 | Graph + TreeView | three cases of addEdgeToTreeView; merging case uses the BFS theorem on the filtered graph; self edges: same filter, each vertex has one or two cross edges to itself |
| C24 | Graph + TreeView | fails (cross edges); exact condition `C24_exact` by counting how often each iterator is met during the visit (`touch_run`, `unharmed_iff`); no condition needed in histories without cycles; self edges: the same counting, a self edge is met twice in a row (`unharmed_iff_any`); after `getTree` with a new view every self edge is listed twice |
| C25-C27 | TreeView | induction on depth; frame rule for unsubscribed views, both for `TreeView::unsubscribe` and for `Graph::unsubscribeTreeView` |
| C28 | Path | fails for removal in the opposite direction; partial for removal events in path direction; second half proved; self edges: an observer that keeps sets of names (`Mirror.take`) |
| C29-C32 | Publisher | induction over call sequences; C30 and C31 fail, partial versions; C31 exact for mixed lists of subscribers |
| C33-C36 | Queue | replay equivalence by induction; C34 fails (remove, add, remove), partial for add-first histories; exact for the events of graphs, one connection at a time; self edges: a frame announced twice has a self edge for ever, so no removal follows |
| C37-C38 | Dispatcher | induction over events; C37: the completing FrameAdded itself is swallowed, repeated names need repeated events |
| C39-C43, C45, C47 | EnvireGraph | refinement/mirror over histories; C45 and C47 also with subscribed views, by comparing with the run on the graph without its views (`blind`); C41 fails for the last of several items; Spec/ItemsAll adds iterator removals and frames made from properties, so that C39 and C42 cover every history (with the exceptions named exactly) |
| C44 | EnvireGraph | fails: items are lost; partial for unknown frames and frames without items |
| C46-C49 | EnvireGraph | C46 partial (exact condition as for C10); C47 proved by simulation of the abstract graph, with self edges by `SimS` (Lemmas/StructSelf); C48, C49 fail, partial; C48_last_name says where a name comes from in every history |
| C50-C53 | Binary, Archive | C50 for byte lists; C51, C53 for token streams with pointer tracking (trusted: Boost tracking, the saving of directed_graph by boost_serialization; loading into an empty graph); C52 fails: an exact description of when the archive is read out of step |
| C54-C56 | Box, Transform | order/group laws; C54 fails for the empty results of `intersection`, C55 fails (wrong variable tested); partial versions |
| C57-C59 | Util | list induction; maps; trusted: `boost::replace_all_copy`, `new` gives fresh addresses |
| C60-C61, C76 | Threads | programs as trees, one access to the graph is the unit of interleaving, any code of the graph functions; invariant: the owner of the mutex finished = serial execution in locking order; C61 fails (`containsEdge` does not lock, returned references); trusted: `std::recursive_mutex`, sequential consistency without races |
| C62 | Items | objects by address, any sequence of later changes; fails for spatial items (`clone` drops class and boundary, assignment shares the boundary); partial version with what is kept |
| C63 | Items (Signal) | specification `survivors`: a connection lives until the callback is disconnected; callbacks that connect and disconnect while they are called; trusted: `boost::signals2` |
| C64, C77 | Plugins | libraries with arbitrary registrations and failures; invariant about what is known and where it comes from; C64 fails (result inverted), C77 fails for types registered under two names; trusted: plugin_manager |
| C65 | Box | see C54 |
| C66 | Alias | references to names are read wherever the code reads them; fails for `removeFrame(getFrameId(v))` (always undefined behaviour when it would work) and for `item->getFrame()` with an iterator (event names the frame ""); all other combinations equal the call with a copy |
| C67 | Views | callbacks of the signals by view object; renaming simulation between the run with and without the move; fails for `edgeRemoved`, copies of subscribed views, assignment over a subscribed view; self edges: `ViewsLoops` for the moved view |
| C68 | TransformGraph + Path | from C13 |
| C69-C71 | Publisher | fail (flag stays set, nested notify, destroyed subscriber); the damage for every program after an exception; exact condition for handlers that destroy; partial versions |
| C74-C75 | Box | C74: projection onto an interval per coordinate, any ordered field; C75 fails (shared boundary); partial version |
| C72-C73 | Queue, Dispatcher | fail (iterator erased, event processed twice; dispatcher not enabled); partial versions; C72_exact_partial says how flush ends for every process() |
| C78 | Drawing | specification: a reader for dot files; round trip; fails for frame names with special characters (two different graphs with the same drawing, broken files); trusted: `boost::write_graphviz`, the text of type names and edges |
| C79 | LoadInto | the loaded graph is the disjoint sum of the graph and the file with the labels made again (lemma `loadGraphInto_eq`); what is found follows by cases; fails whenever a name is shared (the old vertex cannot be found any more) and for events; trusted: the load function of boost_serialization does not clear the graph |
| C80 | ViewReuse | closed form of a search into any view (lemma `Good.build_any`), from which the exact condition for a correct result; fails for views with unreachable vertices or cross edges, for a second subscription and for `rebuildTreeViews`; self edges: a cleared view is built like an empty one |
| C81 | Viz | invariant over all calm histories (refresh after each update, choices from the offered list); fails when data comes twice before a refresh, for a stale choice and for a choice that names one frame only |
| C82 | Viz | closed form of the scene by induction over the callbacks of the search (`slots_sigs`); both ends of a cross edge were met before it (`GraySeen`); same search as `getTransform`, so exact without consistency; fails for an isolated root and for self edges; trusted: vizkit3d `TransformerGraph`; self edges: undefined behaviour exactly if the oldest edge of the root is one, else two links each |
| C83 | Widget | invariant over all interleavings; bounded number of steps until the last text is shown and until the thread ends; fails for the pause and for texts that graphviz cannot read; trusted: Qt, graphviz, sequentially consistent memory |
| C84 | Create | invariant of the registrations over all histories of both processes; fails for two classes with the same data type (one is saved under the name of the other) and for the old macro without data type; trusted: plugin_manager, boost export |
| C85 | Create | same invariant; fails for two spellings of a data type; trusted: plugin_manager |
| C86 | TransformOps | every overload is a call by names (lemma `texec_cmd`), then simulation with the abstract graph of C04; last write characterised in both directions; fails for `getTransform(edge)`, which loses the time, and for self edges; other self edges do not matter: what a call does to a pair of different frames is proved for graphs with self edges |
| C87 | Access | guards with reference counts, invariant: count of the mutex = guards + manual locks, all of one thread; exact condition for undefined behaviour; fails for copies in other threads; trusted: mutex, lock_guard, shared_ptr |
| C88 | Blob | the byte format of Boost is a parameter with three laws (a format with these laws is in `Spec/DemoCodec`); save and load through the buffers of C50 and the archive of C51; cut blobs by prefix argument; fails: typed load returns true with a null pointer, damaged blobs throw |
| C89 | Files | files as bytes, limited room; a load is monotone in the tokens, so a cut file always throws; what a failed load leaves is described for all bytes, and for a cut file exactly in terms of what the whole file gives (C89_left); fails: full disk destroys the old file, failed load leaves vertices without name, drawings fail silently; trusted: streams, order of adding and reading in the load function of boost_serialization |
| C90 | DispatchBack | callbacks as lists of dispatcher calls, recursion bounded by steps, finished results do not depend on the bound; exact description of the calls by depth; termination by a rank of events; fails: a callback registered meanwhile gets the running event, self-registering callbacks never end |
| C91 | Messages | texts as character lists; classes told apart by first and last characters, names by the first separator; fails: " and " in or at the end of a name, zero characters; every confused name described; event texts are prefix free |
| C92 | Reenter | every operation with `notify` as a parameter, handlers as arbitrary functions with bounded nesting; if handlers do nothing at edge removals the result is one of ordinary calls (up to repeated announcements of frames); fails: `remove_edge` publishes half way (half edge for ever, refused removals, assert, views that lose the edge, double removal), `add_edge` keeps descriptors while publishing, endless handlers |
| C93 | ItemReenter | the item calls with `notify` as a parameter, changes of a list in use as undefined; ordinary if handlers ignore removals or if only calls that publish last are used; for all handlers: structure of the graph, result and events of `clearFrame`/`removeFrame` that return; fails: empty entry seen and left behind, invalidated iterators, disturbed `clear`; self edges: pairs of different frames and two edges per self edge along item chains |
| C94 | ViewSlots | every function between a call and an emission with the slots as a parameter; exact comparison with the same call on the graph without views (graph and events) and with the call without slots (views in front of, at and behind the throwing one); fails: `add_edge` loses its event, views behind are stale, `disconnectFrame` stops, `getTree` does not subscribe |
| C95 | ItemAssign | assignments as changes of the frame name; every history with them is one with `setFrame` (so the older theorems apply); exact condition for a later removal; an item assigned from another frame or from a new item stays stuck under every later history that does not clear its frame or rename it (by the item store specification of C39) |
| C96 | Visit | the list of vertices under any calls (sorted by age, appended at the end) as an invariant of the elementary steps; a visit keeps "all older vertices are visited"; witnesses and general theorems for visitors that remove the visited frame, go on making frames, or change the items of the visited frame |
| C97 | ViewUnsub | the loop over the subscribed views compared with the loop without slots (`overViewsU_spec`); undefined exactly if an existing subscription ends during the loop; `getTree` is safe |
| C98 | ManyGraphs | one recursive mutex per wrapper, programs as trees; invariant: every thread takes mutexes along the relation `before` and gives all back; a thread whose wanted mutex is maximal in an acyclic order does not wait; the multiset of programs decreases with each move; fails by lock order inversion, with a ring of any length |
| C99 | Reuse | the functions that create vertices and edges once more with an arbitrary allocator; every function commutes with permutations of the addresses; a fresh address extends the permutation; simulation of whole histories; holds without views, and with views in forests while their roots exist; fails for a removed root and for a stale cross edge |
| C100 | Shuffle | shuffled copies of views; every function related to itself on shuffled states; exact condition for `removeEdge` by moving one vertex to the end of its list; simulation of histories; holds without removals and in forests; fails for two cross edges of equal depth behind the connection and for views with a lost child; self edges: a self edge is a cross edge as deep as its frame |
| C101 | Opaque | translation of properties (`PropMap`); every function of the model commutes with it; two histories that differ in the content only are both translated to properties without content |
| C102 | ItemOrder | pairs of shuffled frames as one frame property, so that calls of the base class follow from C101; item calls by hand; simulation of histories; fails for files with an item of an unknown class |
| C103 | Lifetime | graphs and views as objects with lifetimes; each call runs the graph model on the present graph; invariant between the pointers and the history; exact condition for undefined behaviour of one operation and of a whole program; fails when a graph is destroyed before a view that is subscribed to it |
| C104 | QueueMem | the queue with addresses of the copied events; it refines the model of values; exactly what each operation leaks, flush with any `process` included; balance of processed, queued and leaked events of a program; exactly when a program leaks; fails for superseded events, queues destroyed with events, and copies of queues |
| C105 | PubCopy | the implicit copies of the members; holds for copies of subscribers onto unsubscribed ones (every program); exact effect of the other copies on later notifications and destructors; fails |
| C106 | Publisher | holds if handlers use each publisher either for events or for subscriptions (every nesting, every program), with termination if events can be ranked; handlers that do both are undefined from every state; fails |
| C107 | GraphAssign | holds for the lists of vertices and edges (for ever) and for all reads until a changes; afterwards reads by name follow a, or are undefined if the frame or a is gone; writes go to a; fails |
| C108 | DrawGeneric | specification: a reader for the boxes and arrows of dot files; round trip and injectivity for texts without quotes; fails for a text with quotes that ends its box and begins another |
| C109 | Zoom | product of factors `1 + delta/1200`; fails: one notch forth and back; always smaller by comparison with the exponential; single notches never restore the zoom (odd numerator, even denominator); lost exactly by -1200 |
| C110 | ItemLoop | induction over the rest of the list; exactly the last item decides: if it is chosen, nothing of the type is left; undefined for items listed twice or with another frame name |
| C111 | ItemMove | member by member, with arbitrary remains in moved-from strings and data; independence from C62; fails for `SpatialItem`, which has no move operations |
| C112 | ItemClass, EnvireGraph | single inheritance, a class may or may not override `getTypeInfo`; the list found is the visit filtered by `getTypeInfo`; fails for classes that inherit it |
| C113 | EnvireGraph | simulation with the item store of C39, one call at a time; trusted: vectors of `unordered_map` nodes and frames of the graph do not move while they exist |
| C114 | Transform | product of whole transforms along a path as an inductive relation, compared with what each call returns; fails except for connections and graphs without times |
| C115 | ArchiveVersion | the two kinds of numbers as two kinds of tokens; exchanging them commutes with saving and loading, so that C51 carries over; trusted: Boost stores the class version in the file and passes it to `load` |
| C116 | Descriptors, Reuse | each elementary step keeps the number of a vertex or edge unless its event announces the removal; for `EnvireGraph` by the chains of elementary changes; with reused addresses a stale handle can denote something else (C116_reused) |
| C117 | Graph, EnvireGraph | the documented events as a separate table, call by call; fails for a new frame connected to itself (item 25) and for removals that throw while a view is subscribed |

No property is entirely outside of what a model can express; the ones that depend on run-time
parts (threads, floating point) are stated for the model described above and say so in the manifest.

## 6. Disagreements between the code and the expected property

(found by reading; each gets a witness theorem)

1. `add_edge(a,a)` creates two parallel a->a edges; `remove_edge(a,a)`/`disconnectFrame(a)` then erase the same edge twice (UB); `setEdgeProperty(a,a,p)` leaves `p.inverse()` (Graph.hpp 630-719, 873-901).
2. `EnvireGraph::removeItemFromFrame(frame, iterator)`: removing the last of several items drops the whole type entry (EnvireGraph.hpp 401-407).
3. `~GraphEventPublisher`: `unsubscribe()` already erases, `pop_back` removes another one; odd counts hit `pop_back` on an empty vector (GraphEventPublisher.cpp 112-120).
4. `toBeUnsubscribed` is never cleared: a subscriber that unsubscribed inside a handler and subscribes again later is silently dropped (GraphEventPublisher.cpp 76-103).
5. Event queue: remove, add, remove of an edge cancels to nothing (EdgeEvents.hpp 40-54).
6. `Path::edgeRemoved` only looks at one direction (Path.cpp 44-56).
7. After `InvalidPathException` the path is empty and not dirty, the next `getTransform(path)` returns the identity (TransformGraph.hpp 191-219).
8. `getTransform(a,a)` throws iff the whole graph has no edge (TransformGraph.hpp 94-134); `getFrames(a,a)` is empty.
9. `getTransform(a,b,view)` skips missing edges silently (TransformGraph.hpp 148-189).
10. `EnvireGraph::removeFrame` clears the items before the connectivity check (EnvireGraph.cpp 209-214).
11. `clearFrame` does not reset the frame name of the items; the same item can be in two frames (EnvireGraph.cpp 118-143).
12. Graph copies share the items; removing from one breaks removing from the other (EnvireGraph.cpp 244-271).
13. During EdgeRemoved the inverse edge still exists (Graph.hpp 684-719).
14. Tree views: cross-edge removal leaves a stale entry; removal of a tree edge with leaving cross edges throws after the subtree was dropped; erasing from `crossEdges` while holding iterators (TreeView.cpp 161-253); the move constructor loses the `edgeRemoved` signal (48-62).
15. `AlignedBoundingBox::intersects` is true for all non-empty boxes (AlignedBoundingBox.cpp 86-92).
16. `ThreadSaveEnvireGraph::containsEdge` does not lock.
17. `ClassLoader::loadAllEnvireItemLibraries` returns whether something failed.
18. `Frame::ItemMap` load: an item without handle leaves its body in the stream.
19. Copying a graph after removing a frame that was not the youngest writes out of bounds (Graph.hpp 402-418 with `boost::copy_graph`).
20. `removeFrame(getFrameId(v))` reads a destroyed string; `removeItemFromFrame(item->getFrame(), it)` publishes an empty frame name.
21. An exception in a handler leaves `insideNotify` set: later subscriptions and unsubscriptions are postponed past the next event (GraphEventPublisher.cpp 76-103).
22. A nested `notify` carries out postponed subscriptions and resets `insideNotify` while the outer loop runs over the vector (UB), and delivers the inner event to late subscribers before the outer one.
23. A subscriber destroyed inside a handler is still called for the running event; one entered with `publisher.subscribe(&s)` is called after its destruction; entering it twice delivers every event twice.
24. `remove_edge` with a missing frame throws UnknownFrameException; which of two missing frames is named depends on the evaluation order of arguments (the model takes the origin first).
25. `add_edge("a","a",p)` on an absent frame announces FrameAdded twice; `getTree` does not clear the given view; removing an isolated root leaves it in the view.
26. `flush()`: a `process()` that supersedes the event being processed erases it under the iterator; a throwing `process()` gets the event again (GraphEventQueue.cpp 76-88).
27. `GraphEventDispatcher()` leaves `isWaitingForFrame` uninitialised; a repeated `waitForFrame` needs repeated announcements; the completing FrameAdded is not forwarded; `checkWaitingForFrames` called by the application does not enable the dispatcher although the documentation says so (GraphEventDispatcher.cpp 38-182).
28. `emplaceFrame` with a `Frame` that holds items puts these into the graph without events (Graph.hpp 909-926).
29. `removeItemFromFrame<T>(frame, it)` erases the whole type when the removed item is the last of several: the others disappear without event and keep their frame name (EnvireGraph.hpp 370-410).
30. `EnvireGraph::removeFrame` on a connected frame clears the items and then throws (EnvireGraph.cpp 209-214).
31. `clearFrame`, `removeFrame` and `clear` do not reset the frame name of the items; an item added to two frames knows the last one.
32. Two graphs made by the copy constructor share their items: after `removeItemFromFrame(item)` in one of them the same call in
    the other throws `UnknownFrameException("")` (C49).
33. `createStructuralCopy` is not undone when it throws: frames copied before the clash stay in the destination (C47).
34. `removeItemFromFrame(item)` throws `NoItemsOfTypeInFrameException` rather than `UnknownItemException` when the frame has no item
    of that type.
35. `BinaryOutputBuffer` on a vector that is not empty overwrites from the start and keeps the old tail (C50).
36. Item types without a serialization handle at the saver are left out silently: `save` returns normally (Frame.hpp 157-214, C51).
37. `Serialization::load` returns false for an unknown class without skipping the item: unless that item is the very last one of the
    archive, everything behind it is read out of step, although the log message promises that only this type is dropped (C52).
38. `Graph::load` publishes no events, does not clear the label map, and views subscribed before are not rebuilt (Graph.hpp 991-999).
39. `Serialization::save/load` catch `std::runtime_error` only; `boost::archive::archive_exception` passes through (Serialization.hpp).
40. The result of `intersection` for disjoint boxes is an empty box with crossed corners; extending a box by it enlarges the box, and
    `contains` does not say yes to it although it has no point (C54).  Only `clear()` makes the empty box that `extend` handles.
41. A volume argument that is null or of another class makes `dynamic_pointer_cast` return null, which is used (C55).
42. `SpatialItem` checks its own boundary but not the one of the argument: a null pointer is used.  Items can share a boundary; then
    extending one extends the other (SpatialItem.hpp 66-123, C65, C75).
43. `ThreadSaveEnvireGraph::containsEdge` does not lock: data race with every other call, and a thread can see one direction of an edge
    without the other (ThreadSaveEnvireGraph.hpp 102-104, C61).  `getItems` and `getItem` return references and iterators into the graph
    that are used without the mutex (165-173, C61).
44. `EnvireManager::getInstance` reads and changes a static map without a lock, although it hands out thread-safe graphs; `getMetadata`
    returns a reference that is read after its mutex was released, while `addMapping` may assign (ItemMetadata.cpp 38-54).  One thread
    is assumed for C58 and C59.
45. `Item::clone` always makes an `Item<T>`: the clone of a `SpatialItem` (or any class derived from `Item`) has lost its class, its
    boundary and all other members (Item.hpp 87-94, C62).
46. Assigning or copying a `SpatialItem` copies the pointer to the boundary: both items share it, and extending one changes the other
    (SpatialItem.hpp 50, C62).
47. `ClassLoader::loadAllEnvireItemLibraries` returns `load_fails`: true iff some library could not be loaded, against its
    documentation (ClassLoader.cpp 92-105, ClassLoader.hpp, C64).  The only caller ignores the result.
48. `ENVIRE_REGISTER_PLUGIN2` registers the class name for the type `Item<DataType>`: two plugin classes with the same data type (or one
    beside `ENVIRE_REGISTER_ITEM`) overwrite each other, the class name of items of this type changes when the second library is
    loaded, and `isSerializable` can turn from true to false (Plugin.hpp 90-93, ItemMetadata.cpp 44, C77).
49. `Graph::removeFrame(frame)` uses its reference argument after `remove_vertex`: `removeFrame(getFrameId(v))` reads a destroyed string
    whenever the frame can be removed (Graph.hpp 507-523, C66).  The same holds for `removeFrame(item->getFrame())` if only the frame
    holds the item (EnvireGraph.cpp 209-214).
50. `removeItemFromFrame(item->getFrame(), it)` publishes an `ItemRemovedEvent` with the frame "", because the name of the item is cleared
    before the event is made (EnvireGraph.hpp 394-395, C66).
51. The move constructor of `TreeView` does not move the callbacks of `edgeRemoved` (TreeView.cpp 48-62, C67).
52. `TreeView::operator=` and the copy constructor copy the publisher: a copy of a subscribed view cannot be subscribed (assert), gets
    subscribed when it is moved, and assigning a view that is not subscribed to a subscribed one leaves a dangling pointer in the graph
    when that one is destroyed (TreeView.cpp 34-46, TreeView.hpp 89, C67).
53. `GraphDrawing` escapes the names of types but writes the names of frames as they are: a name with `|`, `{`, `}`, `<`, `>`, `"` or a
    backslash gives a wrong or broken file (GraphDrawing.hpp 50-52, C78).
54. `EnvireGraph::loadFromFile` into a graph with content keeps the old vertices.  A frame name that is also in the file then belongs to
    two vertices; the old one, its items and its edges cannot be found any more, and stay when the name is removed.  No event is
    published for the loaded content (EnvireGraph.cpp 324-332, Graph.hpp 991-999, C79).
55. `getTree` into a view that is not empty adds to the old content: unreachable vertices and cross edges stay, and with another root two
    vertices can become children of each other, on which `visitDfs` never ends (Graph.hpp 565-571, TreeView.cpp 255-259, C80).
56. `Graph::unsubscribeTreeView(&view)`, which the documentation of `getTree` recommends, does not reset the publisher of the view;
    subscribing the view again violates an assert (Graph.hpp 246-247 and 573-579, TreeView.cpp 86-90, C80).
57. `Graph::rebuildTreeViews` reads the root of a view after `clear()` has reset it: with any subscribed view the search starts at the null
    vertex (Graph.hpp 831-838, C80).  Nothing calls it.
58. The structure visualization compares the new list of frames with `nodes`, which `setNodes` also writes.  If the root is removed and
    added again between two refreshes, or the user chooses a frame that was just removed, the window is not told and shows a wrong root
    (EnvireGraphStructureVisualization.cpp 63-71, 98-102, C81).
59. The structure visualization never adds a frame without connections to the scene, also not the root on which it calls `makeRoot`
    (EnvireGraphStructureVisualization.cpp 153-191, C82).  With a self edge at the root the asserts of the cross edge slot fail.
60. The 2D widget tests `pauseRedraw` before it locks: a graph that is given after the pause can still be drawn.  The three flags are
    plain `bool`s that are read without the mutex, which is a data race.  The result of `agmemread` is not checked, so a text that is not
    valid (see 53) crashes the layout thread (EnvireGraph2DStructurWidget.cpp 85-104, C83).
61. `QZoomableGraphicsView::wheelEvent` (C109) scales by `1 + delta/1200`; an event with `delta <= -1200` scales by zero or less,
    and after a zero nothing can be seen any more (QZoomableGraphicsView.cpp 39-46).
62. An item of a plugin class `A` is saved under the name `B` if the library of a class `B` with the same data type was loaded later
    (item 48).  A process that reads the file loads the library of `B` only; boost does not know `A` and throws `archive_exception`,
    which leaves `Serialization::load` and ends the loading of the whole graph (Serialization.hpp 97-134, Plugin.hpp 90-93, C84).
63. Classes derived from `Item` do not override `getTypeInfo` unless they do it by hand: frames store them under `Item<T>`, and the name
    of their class and embedded type and their collision object are those of the class that was registered last for `Item<T>`
    (Item.hpp 200-203, ClassLoader.hpp 177-184, C84, C85).
64. `TransformGraph::getTransform(edge)` returns `(*this)[edge].transform`, which is converted to a `Transform` without time: the time
    stamp is lost.  `getTransform` between frames that are not connected directly never has a time stamp (TransformGraph.hpp 94-134 and
    228-232, C86).
65. `GraphAccess` can be copied to another thread.  The copy gives access to the graph while the first thread owns the mutex, and if the
    last copy is destroyed in the other thread the mutex is unlocked by a thread that does not own it, which is undefined.  The class has
    a destructor of its own, hence no move: `std::move` copies and the moved-from object still holds the lock
    (ThreadSaveEnvireGraph.hpp 21-56, C87).
66. `Serialization::load<Archive, T>` returns the result of the untyped load: if the item is of another type, it returns true with a null
    pointer (Serialization.hpp 143-150, C88).
67. `loadFromBinary` is documented to return true if successful, but for an empty, alien or cut blob an exception of the archive leaves the
    function (the archive is made outside of any `try`, and `archive_exception` is no `std::runtime_error`).  After `saveToBinary` returned
    false, a vector that contained a blob still contains the old item (Serialization.cpp 41-56, C88).
68. `saveToFile` truncates the file before it writes: if the disk is full it throws, but the previous file is lost (EnvireGraph.cpp 313-322,
    C89).
69. `loadFromFile` that throws leaves the vertices read so far in the graph while the name map is not regenerated: no name finds them, and
    adding a frame of that name makes a second one (EnvireGraph.cpp 324-332, Graph.hpp 991-999, C89).
70. `GraphDrawing::write` to a file that cannot be opened or does not fit returns normally (GraphDrawing.hpp 197-215, C89).
71. The loops of the dispatcher run over the live list of callbacks: a callback that registers a callback for the kind of the running event
    makes it called for this event as well, and one that registers itself again never returns (GraphEventDispatcher.cpp 130-164, C90).
72. The texts about two frames separate the names by " and ": "a and" and "b" has the same text as "a" and "and b"; and `what()` ends at the
    first zero character of a name (GraphExceptions.hpp 48-73, 44, C91).
73. `remove_edge` publishes the event after removing the first direction and before removing the second (Graph.hpp 684-705).  A handler that
    throws leaves half an edge that no later call can remove, so both frames stay for ever; a handler that removes one of the frames is
    refused (FrameStillConnected); `setEdgeProperty` in the handler hits the assert; a handler that adds the edge again makes subscribed
    views lose it, and one that adds and removes it makes the outer call remove an edge twice (C92).
74. `add_edge(FrameId, FrameId)` looks both frames up first and then creates and publishes the missing ones: a frame that a handler creates
    meanwhile is announced a second time, one that a handler removes is used through a dangling descriptor (Graph.hpp 659-682, C92).
75. A handler that sets an edge when an edge was modified never returns (C92_endless).
76. `clearFrame` and the removal by iterator publish the removal of the last item of a type while its empty list is still in the map:
    `containsItems` says yes, `getItemCount` 0, and `getItems<T>` hits its assert.  A handler that throws makes this state permanent
    (EnvireGraph.cpp 127-143, EnvireGraph.hpp 370-410, C93).
77. `clearFrame` keeps iterators over the list and the map while it publishes: a handler that removes the next item makes them invalid (C93).
78. `clear` collects the names first: a handler that adds a frame makes it return with a graph that is not empty, one that removes a frame
    makes it throw UnknownFrameException (EnvireGraph.cpp 216-241, C93).
79. A slot of a tree view that throws during `add_edge` leaves both directions of the edge in the graph, but EdgeAddedEvent is never
    published (Graph.hpp 630-657: views first, event last); an observer stops at the next event about that edge (C94_observer_misled).
80. During `remove_edge` such a slot leaves all views that are subscribed later with the removed edge, for ever; their vertices dangle as
    soon as the frame is removed.  The view itself keeps the part of the subtree that was not yet taken out, and adding the edge again does
    not repair it (C94_stale_view, C94_view_incomplete).  `disconnectFrame` ends with edges left; `getTree` with a view that is partly
    built and not subscribed.
81. Assigning to an item that is in a graph (`*item = newItem`, the natural way to update it) copies the frame name too (Item.hpp 98-116):
    afterwards the item is still in its frame but cannot be removed by its pointer (UnknownFrameException), removing it through an iterator
    fails an assert, and `addItem` puts it into a second frame.  Only clearing the frame or setting the name by hand helps (C95_fails,
    C95_stuck, C95_iterator).  Moving from such an item has the same effect.
82. A visitor of `visitVertices` that removes the frame it is called for (the obvious way to remove all frames of some kind) makes the loop
    increment an iterator of a removed vertex (Graph.hpp 1102-1104): undefined behaviour in every graph whose first frame is unconnected
    (C96_remove_visited_fails).  One that makes a frame each time never comes to an end (C96_endless_fails).  Removing other frames, adding
    finitely many and changing edges is fine.  A visitor of `visitItems` must not add or remove items of the visited frame
    (C96_items_changed_fails).  None of this is documented; "The visitation order is" is where the documentation of `visitVertices` breaks off.
83. A slot of a view that calls `unsubscribe()` of its own or of any other subscribed view changes the vector over which `addEdgeToTreeViews`
    and `removeEdgeFromTreeViews` are running (Graph.hpp 576 inside of 724-728 and 734-737): undefined behaviour in every such call that
    does not end with an exception (C97_exact_partial, C97_self_fails).  Destroying a subscribed view in a slot does the same (TreeView.cpp 64-72).
    During the first `getTree` a slot cannot prevent the subscription, which comes after the signals (C97_getTree_partial).
84. Functions of the user run while a `ThreadSaveEnvireGraph` holds its mutex (`visitItems`, event handlers, access objects;
    ThreadSaveEnvireGraph.hpp 62-64, 175-192).  Two threads that each call the wrapper of the other graph inside of such a function wait for
    each other for ever (C98_deadlock, C98_statement_fails).  It does not happen if the wrappers are entered in an order without cycles
    (C98_ordered_partial).  Nothing in the header says so.
85. A tree view stores descriptors of removed vertices and edges: its root after `removeFrame`, and cross edges after `remove_edge`
    (item on C24).  If the allocator gives the address to a new frame, a view of the removed frame shows the tree of the new one
    (C99_statement_fails).  If it gives the address to a new edge, a cross edge of the view denotes an edge between other frames
    (C99_stale_edge).  Without such views the addresses do not matter (C99_avoids_partial, C99_no_views, C99_forest_partial), so that the
    simplification of 1.2 loses nothing for the other properties that speak about names, items, events and correct views.
86. `TreeView::removeEdge` erases cross edges from a vector while it still uses iterators into it (item on C24).  Whether this is undefined
    behaviour depends on the order in which the vertices are visited, and so on the iteration order of a `std::unordered_set` of
    addresses: the same calls may work in one run and crash in the next (C100_statement_fails).  They work in every order exactly if the
    cross edges behind the connection are listed in strictly decreasing order of depth (C100_removeEdge_exact).
87. If a view lists a child that is not in the view, `removeEdge` throws "visitBfs" after it has erased some cross edges, and
    which ones depends on the same order (C100_untidy_fails).  Such a view is the result of `getTree` into a view that is in use.
88. A file with an item of a class that the loader does not know can be loaded if this item was saved last in its frame, and is read out
    of step otherwise (item on C52).  The place of the item depends on the iteration order of a `std::unordered_map` over
    `std::type_index`, so the same program may write files that can be loaded and files that cannot (C102_files_depend).
89. `Graph` has no destructor that ends subscriptions.  A view that is subscribed when its graph is destroyed keeps the pointer to the
    graph; destroying, unsubscribing or moving the view then calls a function of a destroyed object (`TreeView.cpp` 48-73, 104-111), and
    subscribing the view to another graph violates the assert of `setPublisher`.  `TreeView view; EnvireGraph graph;
    graph.getTree("a", true, &view);` is enough, because objects are destroyed in the reverse order of their declarations
    (C103_statement_fails, C103_graph_first_fails, C103_reuse_fails).  The exact condition is C103_program_exact_partial.
    Not modelled: `TypedItemRemovedEvent::clone` (`ItemRemovedEvent.hpp`) returns a pointer to a class that does not derive from
    `GraphEvent`; it does not compile if a program uses it.
90. `GraphEventQueue` leaks.  `notifyGraphEvent` erases the pointer of a superseded event without `delete` (`GraphEventQueue.cpp` 62), so
    each update of a transform that is already in the queue leaks one event, without bound (C104_updates_leak); the destructor deletes
    nothing (lines 40-42).  A copy of a queue shares the pointers; after one of the two was flushed, the other one uses deleted events
    (C104_copy_fails).
91. If `process()` throws whenever it is given a certain event, no number of calls of `flush()` gets past this event (C72_stuck).
92. `GraphEventPublisher` has only the implicit copies.  The assignment of graphs uses them (their copy constructors do not), and so do
    copies of other publishers.  The copy sends its events to the subscribers of the original (C105_copied_publisher_delivers), destroying the copy
    unsubscribes all of them from the original (C105_copy_destroyed), and destroying the original first is undefined as soon as there is
    a subscriber (C105_original_destroyed_first).  A copied subscriber keeps a pointer to its publisher that nobody resets
    (C105_copy_dangles); assigning an unsubscribed subscriber to a subscribed one leads to a call of a destroyed subscriber
    (C105_assignment_fails).
93. A handler may raise events at a publisher or change its subscriptions, but not both: with both, in either order, the outer
    `notify` always continues with an invalidated iterator (C106_subscribe_then_raise, C106_raise_then_subscribe).  The same happens to
    handlers that only raise events, if a handler threw before (C106_exception_then_raise).  A handler may destroy its own subscriber and
    those that were already served, but nobody who stands behind it in the list (C71_destroying_handlers is the exact condition).
94. `Graph` has a copy constructor that makes a deep copy, but no assignment.  The implicit one copies the map from names to vertices,
    so that after `b = a` all functions of `b` that take names work on the vertices of `a`: they read later changes of `a`
    (C107_follows), write to `a` (C107_writes_through) and are undefined for frames that were removed from `a` and after the destruction
    of `a` (C107_dangles).  A graph assigned from a temporary cannot be used at all (C107_temporary).
95. `EnvireGraph::clear` with a subscribed tree view throws "NOT IMPLEMENTED" as soon as a removed connection was part of a cycle; it
    stops there, with most frames, connections and all items still in the graph (C45_cycle_fails).  Without cycles it works, and each view
    keeps its root, a vertex that does not exist any more (C45_clear_views).
96. `GenericVertexWriter` and `GenericEdgeWriter` write `toString()` without escaping anything, so a graph with one frame can have the same
    drawing as a graph with two (C108_same_drawing_fails).
97. In the error branch of `Frame::save` (Frame.hpp 203-209) the name of the class is appended to `class_name`, not to the message.  The branch
    cannot be reached with the plugins of the repository; not modelled.
98. The zoom factor of a wheel event is `1 + delta/1200`, not `c^delta`: turning the wheel back never restores the zoom, the drawing becomes
    smaller each time (C109_back_is_smaller, C109_notches).
99. The loop for which `removeItemFromFrame` returns iterators loses all items of the type that should be kept as soon as the last item of
    the list is a chosen one (C110_exact, C110_loses_the_rest).  They are not announced and still name the frame.
100. `SpatialItem` declares a destructor and therefore has no move operations: moving one copies it, and both objects share the boundary
    afterwards (C111_spatial_shares).  `Item` moves everything but the callbacks, which stay with the old object (C111_construct_partial).
101. A class that derives from an item class and does not override `getTypeInfo`, as `SpatialItem`, is never found under its own name by
    typed access, and its dispatcher is never called (C112_never_found, C112_dispatcher_never); its items appear under the nearest
    ancestor that tells its type (C112_exact).  No access meets a null pointer.
102. One `ItemRemovedEvent` can end the validity of the iterators to all items of the type: removal of the last item through an iterator
    (C113_one_warning_for_all, from item on C41). A frame made from a property with wrongly sorted items announces removals under another
    type than the one whose list changes (C113_unsorted_fails).
103. The three ways of asking for a transform treat time stamps differently (see also item 64): between frames that are not connected
    directly the time is always 0 (C114_exact), with a tree view it is 0 even for connected frames (C114_view_time), with a path it is
    that of the first step (C114_path_time).  `Transform::operator*`, which keeps the latest time, is not used by the graph.
104. `publishCurrentState` and `unpublishCurrentState` send the event for an edge from a frame to itself twice, although `add_edge` sends it once:
    the list of edges that were already sent gets what `getEdge` finds, which is always the first of the two stored edges
    (C09_publish_self_edges, C09_unpublish_self_edges).
105. A tree view made by `getTree` lists an edge from a frame to itself as two cross edges, because the search meets both stored edges while the
    frame is gray.  A subscribed view that follows the addition of the same edge lists it once (C21_with_self_edges, C21_self_edge_follow_differs).
    In all other respects subscribed views of graphs with self edges stay correct under additions (C23_with_self_edges).
106. After any history that left an edge from a frame to itself in the graph, `EnvireGraph::clear()` does not return normally
    (C45_self_edge_always): it disconnects every frame, and the self edge is erased twice.
107. Adding an edge from an unknown frame to itself announces the frame twice.  A queue still tells the right frames, because such a frame can never
    be removed again (C33_graph_with_self_edges).
108. A subscribed tree view made by `getTree` while there is an edge from a frame to itself lists it twice (item 105).  Then removing any connection of
    the view above that frame has undefined behaviour: `TreeView::removeEdge` meets each of the two cross edges twice while it visits the frame, erases
    the first one from the vector, and goes on with the iterator of the second one (C24_self_edge_fails).  If the self edge was added after the
    view was made it is listed once, and the same call returns normally (C24_exact_with_self_edges and the example beside it).
109. A view that was unsubscribed with `graph.unsubscribeTreeView(&view)` still points to the graph (item 56).  If such a view is moved, the move
    constructor takes it for a subscribed one and subscribes the new view, which then changes with the graph again (TreeView.cpp 54-59,
    C27_moved_view_subscribed_again).  If the graph is destroyed first, destroying the view uses the destroyed graph
    (C103_unsubscribed_by_graph_fails).  After `view.unsubscribe()` neither happens.

## 7. Progress *(log)*

(see MANIFEST.json for the status of every claim)

- All source files of /repo are covered: core graph, tree views, publisher and queues, items and item handling, transforms, plugins, files, drawing,
  visualization and widget.  What is trusted or left out is listed in sections 2 and 3.
- Every claim that is marked as proved was read again against its statement.  The last gap found that way was C27 for views unsubscribed through
  the graph; it is closed by `C27_unsubscribed_by_graph`.
- Self edges: claims that were first shown for graphs without self edges were gone through one by one.  Most of them now have a theorem
  with self edges, or a theorem that shows what fails; where a restriction is left, the comment of the theorem says so.
- Where a claim is false, the exact condition under which it holds is stated if one was found (theorems with `exact` in the name).
- seeded/LOG.jsonl lists every wrong program that was tried.  If no theorem of the claim failed, the verdict of the entry
  says why.

