{"id": "C01", "title": "Frame names identify vertices one-to-one", "statement": "After any history of calls, every frame id is attached to at most one vertex, getFrameId(getVertex(f)) = f for every contained frame, getVertex(getFrameId(v)) = v for every vertex of the graph, and num_vertices() is the number of contained frame ids.", "quantifier": "every finite history of public calls starting from an empty graph (add/emplace/remove frames, add/set/remove edges, disconnect, successful or throwing), and every frame id", "why_tests_cant": "A test checks a few names after a few calls; the bijection between the label map and the vertex list (maintained by hand in removeFrame because of a Boost bug) has to survive every interleaving of adds and removes.", "anchors": ["src/graph/Graph.hpp:addFrame", "src/graph/Graph.hpp:add_vertex", "src/graph/Graph.hpp:emplaceFrame", "src/graph/Graph.hpp:removeFrame", "src/graph/Graph.hpp:getVertex", "src/graph/Graph.hpp:getFrameId", "src/graph/Graph.hpp:add_edge"]}
{"id": "C02", "title": "Edges always come in inverse pairs", "statement": "As long as no edge from a frame to itself is added, after any history there is an edge a->b iff there is an edge b->a, there is at most one edge per ordered pair, and the property of one direction is the inverse() of the other.", "quantifier": "every finite history of public calls starting from an empty graph and every ordered pair of frames", "why_tests_cant": "The pairing is an invariant over all reachable states; a test only inspects a handful of end states.", "anchors": ["src/graph/Graph.hpp:add_edge", "src/graph/Graph.hpp:remove_edge", "src/graph/Graph.hpp:setEdgeProperty", "src/graph/Graph.hpp:getEdgeProperty", "src/graph/Graph.hpp:disconnectFrame"]}
{"id": "C03", "title": "Every edge that can be added can be removed again", "statement": "If add_edge(a,b,p) succeeds then remove_edge(a,b) succeeds afterwards and the graph then has the same frames and edges as before plus possibly the frames a and b.", "quantifier": "every reachable graph, every pair of frame ids including a = b, every edge property", "why_tests_cant": "Tests only use two different frames; the a = b case is undefined behaviour and would not reliably fail.", "anchors": ["src/graph/Graph.hpp:add_edge", "src/graph/Graph.hpp:remove_edge"]}
{"id": "C04", "title": "The graph behaves like a set of frames plus a map of edges", "statement": "For any history of calls the outcome of each call (success or which exception) and the answers of containsFrame, containsEdge, getEdgeProperty, num_vertices and num_edges are those of a simple abstract machine that stores a set of frame ids and a partial map from ordered pairs to properties.", "quantifier": "every finite history of public calls starting from an empty graph without self edges, and every query on the resulting graph", "why_tests_cant": "It is a refinement statement over unboundedly long call sequences.", "anchors": ["src/graph/Graph.hpp:addFrame", "src/graph/Graph.hpp:removeFrame", "src/graph/Graph.hpp:add_edge", "src/graph/Graph.hpp:remove_edge", "src/graph/Graph.hpp:setEdgeProperty", "src/graph/Graph.hpp:disconnectFrame", "src/graph/Graph.hpp:containsFrame", "src/graph/Graph.hpp:containsEdge", "src/graph/Graph.hpp:getEdgeProperty", "src/graph/Graph.hpp:num_vertices", "src/graph/Graph.hpp:num_edges"]}
{"id": "C05", "title": "A failing graph call changes nothing and publishes nothing", "statement": "If addFrame, emplaceFrame, add_edge, remove_edge, setEdgeProperty, disconnectFrame or removeFrame throws one of its documented exceptions, the graph is exactly as before and no event was published.", "quantifier": "every reachable graph and every argument for which the call throws", "why_tests_cant": "Tests assert that the exception is thrown, not that the whole state and the event stream are untouched for every reachable graph.", "anchors": ["src/graph/Graph.hpp:addFrame", "src/graph/Graph.hpp:emplaceFrame", "src/graph/Graph.hpp:add_edge", "src/graph/Graph.hpp:remove_edge", "src/graph/Graph.hpp:setEdgeProperty", "src/graph/Graph.hpp:disconnectFrame", "src/graph/Graph.hpp:removeFrame"]}
{"id": "C06", "title": "removeFrame refuses exactly the connected frames", "statement": "Graph::removeFrame(f) throws UnknownFrameException iff f is not contained, throws FrameStillConnectedException iff f is contained and has an edge to or from some frame, and otherwise removes exactly f and leaves every other frame and edge alone.", "quantifier": "every reachable graph and every frame id", "why_tests_cant": "The three-way case split has to be exact on every graph.", "anchors": ["src/graph/Graph.hpp:removeFrame"]}
{"id": "C07", "title": "disconnectFrame terminates and removes exactly the edges of the frame", "statement": "disconnectFrame(f) on a contained frame without a self edge always terminates; afterwards no edge touches f, all other edges and all frames are as before, and exactly one EdgeRemovedEvent(f, n) was published for each former neighbour n.", "quantifier": "every reachable graph without self edges, every contained frame", "why_tests_cant": "Termination of the do/while loop and the exact number of events depend on the pairing invariant for graphs of any size.", "anchors": ["src/graph/Graph.hpp:disconnectFrame", "src/graph/Graph.hpp:remove_edge"]}
{"id": "C08", "title": "The event stream describes the graph completely", "statement": "A subscriber that starts with an empty mirror and applies every frame and edge event to it has, after any history of calls, exactly the frames of the graph and exactly its connections.", "quantifier": "every finite history of public calls starting from an empty graph without self edges", "why_tests_cant": "Holds for histories of any length, including the ones where calls throw.", "anchors": ["src/graph/Graph.hpp:add_vertex", "src/graph/Graph.hpp:add_edge", "src/graph/Graph.hpp:remove_edge", "src/graph/Graph.hpp:removeFrame", "src/graph/Graph.hpp:disconnectFrame", "src/events/GraphEventPublisher.cpp:notify"]}
{"id": "C09", "title": "Publishing the current state replays the graph, unpublishing undoes it", "statement": "subscribe(s, true) sends s one FrameAddedEvent per frame, then exactly one EdgeAddedEvent per connection, then one ItemAddedEvent per item, so that replaying them gives exactly the current graph; unsubscribe(s, true) sends the matching removals, and replaying those empties the mirror; every edge event comes while both its frames are known.", "quantifier": "every reachable graph without self edges", "why_tests_cant": "The inverse-edge bookkeeping (published_edges) must suppress exactly one of every pair for graphs of any size.", "anchors": ["src/graph/Graph.hpp:publishCurrentState", "src/graph/Graph.hpp:unpublishCurrentState", "src/graph/EnvireGraph.cpp:publishCurrentState", "src/graph/EnvireGraph.cpp:unpublishCurrentState"]}
{"id": "C10", "title": "Copying a graph gives an equal and independent graph", "statement": "The copy constructor yields a graph with the same frames, frame properties and edges, without subscribers or tree views, publishing no event; later changes of one graph do not change the other.", "quantifier": "every reachable graph, including those from which frames were removed earlier", "why_tests_cant": "Tests copy a freshly built graph; the copy goes through a vertex index that is only dense if no frame was ever removed.", "anchors": ["src/graph/Graph.hpp:Graph(const Graph&)", "src/graph/Graph.hpp:regenerateLabelMap", "src/graph/EnvireGraph.cpp:EnvireGraph(const EnvireGraph&)"]}
{"id": "C11", "title": "setEdgeProperty updates both directions and nothing else", "statement": "After setEdgeProperty(a,b,p) succeeds, getEdgeProperty(a,b) = p, getEdgeProperty(b,a) = p.inverse(), every other edge property and all frames are unchanged, and exactly one EdgeModifiedEvent(a,b) was published.", "quantifier": "every reachable graph, every pair of frames (including a = b), every property", "why_tests_cant": "Needs every other edge of an arbitrary graph to be unchanged, and covers the a = b corner.", "anchors": ["src/graph/Graph.hpp:setEdgeProperty", "src/graph/Graph.hpp:getEdgeProperty"]}
{"id": "C12", "title": "Event handlers see a graph that matches the event", "statement": "While a subscriber handles FrameAdded(f) the frame f is contained; while it handles EdgeAdded/EdgeModified(a,b) both directions exist; while it handles EdgeRemoved(a,b) neither direction exists; while it handles FrameRemoved(f) the frame is gone.", "quantifier": "every call in every history, every published event", "why_tests_cant": "It constrains the intermediate state at every notification point, which tests that inspect the graph after the call cannot see.", "anchors": ["src/graph/Graph.hpp:add_vertex", "src/graph/Graph.hpp:add_edge", "src/graph/Graph.hpp:remove_edge", "src/graph/Graph.hpp:setEdgeProperty", "src/graph/Graph.hpp:removeFrame"]}
{"id": "C13", "title": "getFrames returns a shortest path", "statement": "If getFrames(a,b) returns a non-empty list, the list starts with a, ends with b, consecutive frames are connected by an edge, no frame occurs twice, and no path from a to b has fewer frames.", "quantifier": "every reachable graph, every pair of contained frames", "why_tests_cant": "Optimality quantifies over all paths of all graphs.", "anchors": ["src/graph/Graph.hpp:getFrames", "src/graph/GraphVisitors.hpp:GraphBFSVisitor", "src/graph/Graph.hpp:breadthFirstSearch"]}
{"id": "C14", "title": "getFrames returns an empty list exactly if there is no path", "statement": "getFrames(a,b) is empty iff b cannot be reached from a; in particular getFrames(a,a) is not empty. It throws UnknownFrameException iff one of the frames is not contained.", "quantifier": "every reachable graph, every pair of frame ids including a = b", "why_tests_cant": "Unreachability is a statement about all paths; the a = b corner is not tested.", "anchors": ["src/graph/Graph.hpp:getFrames"]}
{"id": "C15", "title": "getTransform composes the transforms along a shortest path", "statement": "getTransform(a,b) returns the property of the direct edge if there is one, otherwise the product of the edge transforms along a shortest path from a to b; it throws UnknownTransformException iff there is no path from a to b.", "quantifier": "every reachable transform graph, every pair of contained frames including a = b", "why_tests_cant": "Quantifies over all graphs and all paths.", "anchors": ["src/graph/TransformGraph.hpp:getTransform"]}
{"id": "C16", "title": "All ways of asking for a transform agree on consistent graphs", "statement": "If the edge transforms are consistent with some assignment of poses to the frames (T(a,b) = pose(a)^-1 pose(b) on every edge), then getTransform by frames, by a tree view of the graph and by a path all return pose(a)^-1 pose(b) for connected frames (a frame counts as connected with itself if the graph has an edge), whatever tree or path is used.", "quantifier": "every graph with a consistent pose assignment, every up-to-date tree view, every valid path, every pair of connected frames", "why_tests_cant": "Tests compare particular numbers on particular graphs.", "anchors": ["src/graph/TransformGraph.hpp:getTransform"]}
{"id": "C17", "title": "Tree-shaped transform graphs are always consistent", "statement": "If a graph is built by calls that only ever connect frames that were not connected before (plus updates and removals of transforms), then a consistent pose assignment exists, hence getTransform(a,c) = getTransform(a,b) * getTransform(b,c) and getTransform(b,a) = getTransform(a,b)^-1 whenever they are defined.", "quantifier": "every history of addFrame/addTransform/updateTransform/removeTransform/removeFrame in which each added edge joins two different components", "why_tests_cant": "Invariant over histories of any length.", "anchors": ["src/graph/TransformGraph.hpp:addTransform", "src/graph/TransformGraph.hpp:updateTransform", "src/graph/TransformGraph.hpp:removeTransform", "src/graph/TransformGraph.hpp:getTransform"]}
{"id": "C18", "title": "getTransform with a tree view never returns a wrong transform", "statement": "getTransform(a,b,view) either throws or returns the product of the graph's current edge transforms along the path from a to b in the view.", "quantifier": "every graph, every view (up to date or stale), every pair of frames", "why_tests_cant": "Stale views come in unboundedly many shapes and the silent-skip branch gives plausible numbers.", "anchors": ["src/graph/TransformGraph.hpp:getTransform(vertex_descriptor,vertex_descriptor,TreeView)"]}
{"id": "C19", "title": "getTransform with a path never returns a transform for a broken path", "statement": "getTransform(path) returns the transform from the first to the last frame of the path if the frames are connected, and throws if origin and target are not connected, every time it is called.", "quantifier": "every graph, every path obtained from it earlier, every later change of the graph, every number of calls", "why_tests_cant": "Needs repeated calls after a failure, over all graph changes in between.", "anchors": ["src/graph/TransformGraph.hpp:getTransform(std::shared_ptr<Path>)", "src/graph/Path.cpp:setFrames"]}
{"id": "C20", "title": "getTree spans exactly the connected component", "statement": "getTree(r) contains exactly the frames reachable from r; the root has no parent, every other vertex has exactly one parent, which is a graph neighbour; children and parent relations mirror each other; following parents from any vertex ends at the root.", "quantifier": "every reachable graph, every root", "why_tests_cant": "Acyclicity and spanning are inductive properties of the search on arbitrary graphs.", "anchors": ["src/graph/Graph.hpp:getTree", "src/graph/GraphVisitors.hpp:TreeBuilderVisitor", "src/graph/TreeView.cpp:addEdge", "src/graph/TreeView.cpp:addRoot"]}
{"id": "C21", "title": "Every connection is either a tree edge or listed once as cross edge", "statement": "In the view returned by getTree(r) every connection between two frames of the component is either a tree edge and not listed in crossEdges, or no tree edge and listed in crossEdges exactly once (in one of its two directions), and crossEdges lists nothing else.", "quantifier": "every reachable graph without self edges, every root, every pair of frames", "why_tests_cant": "Depends on the colouring order of the search on every graph with cycles.", "anchors": ["src/graph/Graph.hpp:getTree", "src/graph/GraphVisitors.hpp:TreeBuilderVisitor:gray_target", "src/graph/TreeView.cpp:addCrossEdge"]}
{"id": "C22", "title": "Tree view paths from the root are shortest", "statement": "In the view returned by getTree(r), the number of steps from a vertex to the root along parents is the length of a shortest path between them in the graph.", "quantifier": "every reachable graph, every root, every vertex of the view", "why_tests_cant": "Optimality over all paths.", "anchors": ["src/graph/Graph.hpp:getTree", "src/graph/GraphVisitors.hpp:TreeBuilderVisitor"]}
{"id": "C23", "title": "A subscribed tree view follows every added edge", "statement": "If a view is a correct tree view of the graph (spanning the component of its root, parents acyclic, connections partitioned into tree and cross edges) and is subscribed, then after any sequence of addFrame/add_edge calls it is a correct tree view of the new graph.", "quantifier": "every reachable graph, every correct view, every sequence of additions without self edges, including those that merge two components of any shape", "why_tests_cant": "The merged component can be any graph.", "anchors": ["src/graph/Graph.hpp:addEdgeToTreeView", "src/graph/Graph.hpp:addEdgeToTreeViews", "src/graph/Graph.hpp:subscribeTreeView"]}
{"id": "C24", "title": "A subscribed tree view follows every removed edge", "statement": "If a correct tree view is subscribed, then after any remove_edge the view is again a correct tree view of the graph and the call does not throw.", "quantifier": "every reachable graph, every subscribed correct view, every removed edge (tree edge or cross edge)", "why_tests_cant": "Removal with cross edges has many shapes; the code has an unimplemented branch, a stale-list branch and an iterator-invalidation branch.", "anchors": ["src/graph/TreeView.cpp:removeEdge", "src/graph/Graph.hpp:removeEdgeFromTreeViews", "src/graph/Graph.hpp:remove_edge"]}
{"id": "C25", "title": "visitDfs and visitBfs visit each vertex of the subtree once, parents first", "statement": "visitDfs(n,f) and visitBfs(n,f) on a correct view call f exactly once for each vertex of the subtree of n, with its parent, and never before its parent; visitBfs visits in order of non-decreasing depth; both terminate.", "quantifier": "every correct tree view, every start vertex, every iteration order of the children", "why_tests_cant": "All tree shapes and all hash orders.", "anchors": ["src/graph/TreeView.hpp:visitDfs", "src/graph/TreeView.hpp:visitBfs"]}
{"id": "C26", "title": "edgeExists, vertexExists, getParent and isParent agree", "statement": "On a correct view edgeExists(a,b) = edgeExists(b,a), it is true iff isParent(a,b) or isParent(b,a), implies vertexExists of both; getParent throws iff the vertex is not in the view.", "quantifier": "every correct tree view, every pair of vertices", "why_tests_cant": "Universal over views.", "anchors": ["src/graph/TreeView.cpp:edgeExists", "src/graph/TreeView.cpp:vertexExists", "src/graph/TreeView.cpp:getParent", "src/graph/TreeView.cpp:isParent"]}
{"id": "C27", "title": "Unsubscribed views are never touched", "statement": "After unsubscribeTreeView(v) (or v->unsubscribe()) no graph call changes v or emits its signals, while the other subscribed views keep being updated.", "quantifier": "every sequence of graph calls after the unsubscription", "why_tests_cant": "Quantifies over all later calls.", "anchors": ["src/graph/Graph.hpp:unsubscribeTreeView", "src/graph/TreeView.cpp:unsubscribe"]}
{"id": "C28", "title": "An auto-updating path notices the removal of any of its edges", "statement": "An auto-updating path is dirty after one of the connections between consecutive frames of the path was removed from the graph, and is not dirty as long as none of them was removed.", "quantifier": "every path, every history of later graph calls, every way of removing a connection (remove_edge in either direction, disconnectFrame of either end, clear)", "why_tests_cant": "The tests remove only in path direction.", "anchors": ["src/graph/Path.cpp:edgeRemoved", "src/graph/Path.cpp:createEdges", "src/graph/Graph.hpp:remove_edge", "src/graph/Graph.hpp:getPath"]}
{"id": "C29", "title": "Every subscriber receives every event exactly once, in order", "statement": "While events are enabled, every notification is delivered exactly once to every subscriber that is subscribed when it starts, in subscription order, and subscribers that are not subscribed receive nothing; disabled publishers deliver nothing.", "quantifier": "every sequence of subscribe/unsubscribe/notify/enable calls, with handlers that do not call back into the publisher", "why_tests_cant": "All call sequences and any number of subscribers.", "anchors": ["src/events/GraphEventPublisher.cpp:subscribe", "src/events/GraphEventPublisher.cpp:unsubscribe", "src/events/GraphEventPublisher.cpp:notify"]}
{"id": "C30", "title": "Subscribing and unsubscribing inside an event handler takes effect after the event", "statement": "If handlers subscribe or unsubscribe while an event is delivered, the delivery of that event is not affected, and afterwards the subscriber list is the old one plus the new subscribers minus the removed ones - for this and for all later events.", "quantifier": "every handler behaviour, every sequence of events and later subscriptions", "why_tests_cant": "Effect of leftover bookkeeping only shows in longer call sequences.", "anchors": ["src/events/GraphEventPublisher.cpp:notify", "src/events/GraphEventPublisher.cpp:subscribe", "src/events/GraphEventPublisher.cpp:unsubscribe"]}
{"id": "C31", "title": "Destroying a publisher unsubscribes all remaining subscribers", "statement": "Destroying a publisher unsubscribes every remaining subscriber (none of them keeps a pointer to the destroyed publisher) without undefined behaviour.", "quantifier": "every number of subscribers and every way they subscribed", "why_tests_cant": "Undefined behaviour in a destructor may or may not be visible in a test; all subscriber counts matter.", "anchors": ["src/events/GraphEventPublisher.cpp:~GraphEventPublisher", "src/events/GraphEventSubscriber.cpp:unsubscribe"]}
{"id": "C32", "title": "A subscriber is subscribed to at most one publisher", "statement": "After any sequence of subscriber.subscribe(p)/unsubscribe()/destruction outside of event handlers, a subscriber is in the list of the publisher it points to exactly once and in no other list; after unsubscribe or destruction it is in no list.", "quantifier": "every sequence of calls over any number of subscribers and publishers", "why_tests_cant": "Relational invariant over histories.", "anchors": ["src/events/GraphEventSubscriber.cpp:subscribe", "src/events/GraphEventSubscriber.cpp:unsubscribe", "src/events/GraphEventSubscriber.cpp:~GraphEventSubscriber"]}
{"id": "C33", "title": "The event queue preserves the net effect on frames", "statement": "Replaying the events delivered by flush() gives the same set of frames as replaying the original events.", "quantifier": "every sequence of events as a graph publishes them, every set of frames known before, every flush point", "why_tests_cant": "All event sequences of any length.", "anchors": ["src/events/GraphEventQueue.cpp:notifyGraphEvent", "src/events/GraphEventQueue.cpp:flush", "src/events/FrameEvents.hpp:mergeable"]}
{"id": "C34", "title": "The event queue preserves the net effect on edges", "statement": "Replaying the events delivered by flush() gives the same set of connections as replaying the original events.", "quantifier": "every sequence of events as a graph publishes them, every set of connections known before, every flush point", "why_tests_cant": "The merge rule assumes a fixed order of events; only long sequences (remove, add, remove) break the assumption.", "anchors": ["src/events/GraphEventQueue.cpp:notifyGraphEvent", "src/events/EdgeEvents.hpp:mergeable"]}
{"id": "C35", "title": "The event queue does not lose modifications and reports each edge at most once as modified", "statement": "If an edge was modified after the last time it was removed or added, flush() delivers a modified event for it (and the last one in order of modification); between two flushes at most one modified event per connection is delivered.", "quantifier": "every sequence of events, every connection", "why_tests_cant": "All event sequences.", "anchors": ["src/events/GraphEventQueue.cpp:notifyGraphEvent", "src/events/EdgeEvents.hpp:mergeable"]}
{"id": "C36", "title": "The event queue delivers all item events in order and empties itself", "statement": "flush() delivers every item event received since the last flush exactly once and in order; the relative order of the surviving events is the order in which they were received; afterwards the queue is empty.", "quantifier": "every sequence of events", "why_tests_cant": "All event sequences.", "anchors": ["src/events/GraphEventQueue.cpp:notifyGraphEvent", "src/events/GraphEventQueue.cpp:flush"]}
{"id": "C37", "title": "A dispatcher waiting for frames stays silent until all of them were added", "statement": "After waitForFrame(f1..fn) the dispatcher forwards no event until each of f1..fn was announced by FrameAdded, and forwards every event after that.", "quantifier": "every list of awaited frames (with repetitions), every event sequence", "why_tests_cant": "All orders and repetitions.", "anchors": ["src/events/GraphEventDispatcher.cpp:waitForFrame", "src/events/GraphEventDispatcher.cpp:checkWaitingForFrames", "src/events/GraphEventDispatcher.cpp:notifyGraphEvent"]}
{"id": "C38", "title": "The dispatchers call exactly the matching callbacks", "statement": "An enabled dispatcher calls, for each event, all callbacks registered for that kind of event in registration order and no other callbacks; a disabled one calls none; a typed item dispatcher forwards exactly the item events whose item has the type T.", "quantifier": "every set of registered callbacks, every event sequence", "why_tests_cant": "All combinations of events and registrations.", "anchors": ["src/events/GraphEventDispatcher.cpp:notifyGraphEvent", "src/events/GraphItemEventDispatcher.hpp:notifyGraphEvent"]}
{"id": "C39", "title": "Frames store exactly the items that were added and not removed, in order", "statement": "After any history, getItems(f, T) lists exactly the items of type T that were added to f and not removed, in the order they were added; getItemCount, getTotalItemCount, containsItems, getItem(f,i) and getItemTypes are consistent with those lists; no frame ever lists a type with no items.", "quantifier": "every history of item, frame and edge calls (item removal by item pointer), every frame, type and index", "why_tests_cant": "Refinement over histories of any length.", "anchors": ["src/graph/EnvireGraph.cpp:addItemToFrame", "src/graph/EnvireGraph.cpp:removeItemFromFrame", "src/graph/EnvireGraph.cpp:clearFrame", "src/graph/EnvireGraph.hpp:getItems", "src/graph/EnvireGraph.hpp:getItem", "src/graph/EnvireGraph.hpp:getItemCount", "src/graph/EnvireGraph.cpp:containsItems", "src/graph/EnvireGraph.cpp:getTotalItemCount", "src/graph/EnvireGraph.cpp:getItemTypes"]}
{"id": "C40", "title": "Adding and then removing an item restores the frame", "statement": "addItemToFrame(f, i) followed by removeItemFromFrame(i) leaves all item lists of all frames as before (for an item that was not in the frame before), and the item's frame is empty.", "quantifier": "every reachable graph, every contained frame, every item", "why_tests_cant": "All states.", "anchors": ["src/graph/EnvireGraph.cpp:addItemToFrame", "src/graph/EnvireGraph.cpp:removeItemFromFrame"]}
{"id": "C41", "title": "Removing an item through an iterator removes only that item", "statement": "removeItemFromFrame(f, it) removes exactly the item at the iterator, keeps all other items of the frame in order, publishes exactly one ItemRemovedEvent for it, and returns the range of the items after it.", "quantifier": "every reachable graph, every frame, type and valid position", "why_tests_cant": "The effect depends on the position in the list (last of several).", "anchors": ["src/graph/EnvireGraph.hpp:removeItemFromFrame"]}
{"id": "C42", "title": "Item events describe the items of the graph", "statement": "A subscriber that applies every item event (and drops a frame's items when the frame is removed) to an empty mirror has, after any history, exactly the items of each frame.", "quantifier": "every history of calls (item removal by item pointer), every frame", "why_tests_cant": "All histories.", "anchors": ["src/graph/EnvireGraph.cpp:addItemToFrame", "src/graph/EnvireGraph.cpp:removeItemFromFrame", "src/graph/EnvireGraph.cpp:clearFrame", "src/graph/EnvireGraph.cpp:removeFrame"]}
{"id": "C43", "title": "clearFrame removes all items of one frame and nothing else", "statement": "clearFrame(f) leaves f without items and every other frame, edge and item list unchanged, and publishes exactly one ItemRemovedEvent per item of f.", "quantifier": "every reachable graph, every contained frame", "why_tests_cant": "All item maps.", "anchors": ["src/graph/EnvireGraph.cpp:clearFrame"]}
{"id": "C44", "title": "EnvireGraph::removeFrame is all or nothing", "statement": "If EnvireGraph::removeFrame(f) throws, no frame, edge or item was changed and no event was published.", "quantifier": "every reachable graph and every frame id", "why_tests_cant": "Tests only check that the exception is thrown.", "anchors": ["src/graph/EnvireGraph.cpp:removeFrame", "src/graph/EnvireGraph.cpp:clearFrame"]}
{"id": "C45", "title": "clear empties the graph and announces it", "statement": "clear() never throws on a graph without self edges that has no subscribed tree views, or correct ones and no cycle, leaves no frame, edge and item, and the published events are one ItemRemoved per item, one EdgeRemoved per connection and one FrameRemoved per frame.", "quantifier": "every reachable graph without self edges and without subscribed views, or without cycles and with any number of correct subscribed views", "why_tests_cant": "All graphs; depends on the termination of disconnectFrame and on the order of the calls.", "anchors": ["src/graph/EnvireGraph.cpp:clear"]}
{"id": "C46", "title": "Filtered copies contain exactly the selected item types", "statement": "The filtering constructor yields a graph with the same frames and edges in which a frame has the items of type T iff T passes the filter (inclusive: T in the list, exclusive: T not in the list, no list: always), in the same order.", "quantifier": "every reachable graph, every filter list, both modes", "why_tests_cant": "All item maps and filters.", "anchors": ["src/graph/EnvireGraph.cpp:EnvireGraph(const EnvireGraph&,unordered_set*,bool)"]}
{"id": "C47", "title": "A structural copy has the same frames and transforms and no items", "statement": "createStructuralCopy into a graph that has none of the frames adds exactly the frames and transforms of the source (for each connection at least in one direction; in both if the inverse of the inverse is the transform itself), no items, and does not change the source, and subscribed tree views of the destination stay correct; into a graph that already contains one of the frames it throws FrameAlreadyExistsException.", "quantifier": "every reachable source and destination, self edges included, with any number of subscribed tree views that are correct (apart from self edges)", "why_tests_cant": "All graphs.", "anchors": ["src/graph/EnvireGraph.cpp:createStructuralCopy"]}
{"id": "C48", "title": "An item knows the frame it is in", "statement": "For every item in the list of frame f, item->getFrame() = f; items in no frame of the graph that were removed by removeItemFromFrame have an empty frame name.", "quantifier": "every history of item calls, every item, including items added twice, to two frames or through two graphs", "why_tests_cant": "All histories; aliasing of shared pointers.", "anchors": ["src/graph/EnvireGraph.cpp:addItemToFrame", "src/graph/EnvireGraph.cpp:removeItemFromFrame", "src/graph/EnvireGraph.cpp:clearFrame"]}
{"id": "C49", "title": "Graphs do not influence each other through copied items", "statement": "After copying an EnvireGraph, removing an item from one of the two graphs does not make the same operation fail in the other graph.", "quantifier": "every reachable graph, every item", "why_tests_cant": "The interference goes through the shared item object.", "anchors": ["src/graph/EnvireGraph.cpp:EnvireGraph(const EnvireGraph&)", "src/graph/EnvireGraph.cpp:removeItemFromFrame"]}
{"id": "C50", "title": "Binary buffers return exactly the bytes written", "statement": "Writing any byte sequence through BinaryOutputBuffer into an empty vector stores exactly those bytes, and reading through BinaryInputBuffer yields exactly them and then end of file.", "quantifier": "every byte sequence, every division into single puts and block writes", "why_tests_cant": "All byte values (including 0xFF) and all chunkings.", "anchors": ["src/serialization/BinaryBufferHelper.hpp"]}
{"id": "C51", "title": "Saving and loading a frame's items gives the same items back", "statement": "If every item type in a frame has a serialization handle, loading a saved item map gives the same types, the same items in the same order and the same metadata.", "quantifier": "every item map whose lists are non-empty and whose items have the type of their list", "why_tests_cant": "Round trip over all maps and all iteration orders.", "anchors": ["src/items/Frame.hpp:save", "src/items/Frame.hpp:load", "src/serialization/Serialization.hpp"]}
{"id": "C52", "title": "Unknown item types are dropped without damaging the others", "statement": "If some item class has no serialization handle when loading, exactly the items of that class are dropped and all other items are loaded correctly.", "quantifier": "every item map, every set of classes unknown to the loader", "why_tests_cant": "Depends on what is left in the stream after a skipped item.", "anchors": ["src/items/Frame.hpp:load", "src/serialization/Serialization.hpp:load"]}
{"id": "C53", "title": "Saving and loading a graph gives the same graph back", "statement": "Loading a saved graph into an empty graph gives the same frames (with their properties), edges and edge properties, and all lookups by name work.", "quantifier": "every reachable graph", "why_tests_cant": "Round trip over all graphs.", "anchors": ["src/graph/Graph.hpp:save", "src/graph/Graph.hpp:load", "src/graph/Graph.hpp:regenerateLabelMap"]}
{"id": "C54", "title": "Bounding boxes: extend gives the smallest enclosing box", "statement": "Extending a box by points and boxes yields a box that contains all of them and is contained in every box that contains all of them; the order of the extensions does not matter; contains(point) and contains(box) are exact for the represented set.", "quantifier": "every sequence of points and boxes over ordered coordinates (floating point NaN excluded)", "why_tests_cant": "All coordinates and orders.", "anchors": ["src/items/AlignedBoundingBox.cpp:extend", "src/items/AlignedBoundingBox.cpp:contains"]}
{"id": "C55", "title": "Bounding boxes: intersects is exact", "statement": "intersects(b) is true iff some point lies in both boxes, and it is symmetric.", "quantifier": "every pair of boxes", "why_tests_cant": "All pairs; tests contain no disjoint boxes.", "anchors": ["src/items/AlignedBoundingBox.cpp:intersects", "src/items/AlignedBoundingBox.cpp:intersection"]}
{"id": "C56", "title": "Transform composition keeps the latest time stamp and the group laws", "statement": "(a*b).time = max(a.time,b.time); a.inverse().time = a.time; composition is associative, a*a.inverse() has the identity as transform part, inverse is an involution and reverses products.", "quantifier": "all transforms (exact arithmetic)", "why_tests_cant": "Algebraic laws for all values.", "anchors": ["src/items/Transform.hpp:operator*", "src/items/Transform.hpp:inverse", "src/items/Transform.hpp:setIdentity"]}
{"id": "C57", "title": "Escaping type names is lossless", "statement": "escapeAngleBraces puts a backslash before every '<' and '>' and changes nothing else: removing the backslash before each angle brace gives back the input, so different names stay different.", "quantifier": "every string", "why_tests_cant": "All strings.", "anchors": ["src/util/Demangle.cpp:escapeAngleBraces"]}
{"id": "C58", "title": "The manager returns one graph per name", "statement": "EnvireManager::getInstance(n) returns the same graph for the same name and different graphs for different names, in any order of calls, and never a null pointer.", "quantifier": "every sequence of names", "why_tests_cant": "All call sequences.", "anchors": ["src/util/EnvireManager.cpp:getInstance"]}
{"id": "C59", "title": "Item metadata: last registration wins, others are untouched", "statement": "After any sequence of addMetadata calls getMetadata(t) returns the data registered last for t and throws iff t was never registered.", "quantifier": "every sequence of registrations and every lookup", "why_tests_cant": "All sequences.", "anchors": ["src/items/ItemMetadata.cpp"]}
{"id": "C60", "title": "Calls through the thread-safe wrapper are atomic", "statement": "For every schedule of any number of threads calling the locking operations, no two operations are ever inside the graph at the same time and the resulting graph is the one obtained by executing the operations one after the other in the order in which they obtained the lock.", "quantifier": "every number of threads, every program of operations (with nested locking), every schedule", "why_tests_cant": "The number of schedules is unbounded.", "anchors": ["src/util/ThreadSaveEnvireGraph.hpp"]}
{"id": "C61", "title": "No call through the thread-safe wrapper sees a half-done change", "statement": "Every query through the wrapper (including containsEdge) answers according to a state between two complete operations.", "quantifier": "every schedule, every query", "why_tests_cant": "A race needs an unlucky schedule to show up.", "anchors": ["src/util/ThreadSaveEnvireGraph.hpp:containsEdge", "src/util/ThreadSaveEnvireGraph.hpp:getItems"]}
{"id": "C62", "title": "Cloned and assigned items are independent copies", "statement": "clone() and operator= give an item with the same id, frame, time and content; later changes of the copy do not change the original and callbacks connected to the original are not called for the copy.", "quantifier": "every item, every later change", "why_tests_cant": "All states.", "anchors": ["src/items/Item.hpp:clone", "src/items/ItemBase.cpp"]}
{"id": "C63", "title": "Every connected contents-changed callback is called once per change", "statement": "contentsChanged() calls every callback connected and not disconnected since, exactly once per connection and in order of connection.", "quantifier": "every sequence of connect/disconnect/contentsChanged", "why_tests_cant": "All sequences.", "anchors": ["src/items/ItemBase.hpp:connectContentsChangedCallback", "src/items/ItemBase.hpp:disconnectContentsChangedCallback", "src/items/ItemBase.cpp:contentsChanged"]}
{"id": "C64", "title": "loadAllEnvireItemLibraries reports success correctly", "statement": "loadAllEnvireItemLibraries() returns true iff all libraries were loaded.", "quantifier": "every set of libraries and every pattern of load failures", "why_tests_cant": "All failure patterns.", "anchors": ["src/plugin/ClassLoader.cpp:loadAllEnvireItemLibraries"]}
{"id": "C65", "title": "Spatial queries without a boundary throw", "statement": "All spatial queries of a SpatialItem without boundary throw std::runtime_error, also if the argument is an item without boundary, and answer like the bounding box otherwise.", "quantifier": "every item, with or without boundary, every argument", "why_tests_cant": "Includes undefined behaviour for a missing boundary of the argument.", "anchors": ["src/items/SpatialItem.hpp"]}
{"id": "C66", "title": "Removing things by a name owned by the graph is safe", "statement": "removeFrame(getFrameId(v)) and removeItemFromFrame(item->getFrame(), it) behave as with a copy of the name.", "quantifier": "every reachable graph, every vertex, every item", "why_tests_cant": "Argument aliasing: reads freed or overwritten memory, which tests with string literals never do.", "anchors": ["src/graph/Graph.hpp:removeFrame", "src/graph/EnvireGraph.hpp:removeItemFromFrame"]}
{"id": "C67", "title": "A moved or copied tree view keeps working", "statement": "After moving a subscribed view the new object receives all updates and signals (edgeAdded, edgeRemoved, crossEdgeAdded) and the old one none; a copied view is not subscribed and can be subscribed.", "quantifier": "every view state, every later graph change", "why_tests_cant": "All later changes.", "anchors": ["src/graph/TreeView.cpp:TreeView(TreeView&&)", "src/graph/TreeView.cpp:operator="]}
{"id": "C68", "title": "A dirty path is replaced by a valid shortest path", "statement": "If a dirty path is used in getTransform and origin and target are still connected, afterwards the path is not dirty, has the same origin and target, is a shortest path of the current graph, and notices later removals of its new edges.", "quantifier": "every graph, every dirty path", "why_tests_cant": "All graphs.", "anchors": ["src/graph/TransformGraph.hpp:getTransform(std::shared_ptr<Path>)", "src/graph/Path.cpp:setFrames", "src/graph/Path.cpp:createEdges"]}
{"id": "C69", "title": "An exception thrown by an event handler leaves the publisher usable", "statement": "If a handler throws, the exception reaches the caller of notify after the subscribers before it were called, and later subscriptions, unsubscriptions and events behave as if no event were being delivered.", "quantifier": "every subscriber list, every position of the throwing subscriber, every later call sequence", "why_tests_cant": "The damage (a flag that stays set) only shows in later calls, for all call sequences.", "anchors": ["src/events/GraphEventPublisher.cpp:notify", "src/events/GraphEventPublisher.cpp:subscribe", "src/events/GraphEventPublisher.cpp:unsubscribe"]}
{"id": "C70", "title": "Events may be raised inside event handlers", "statement": "A handler may cause further events at any publisher; every such event is delivered to all subscribers of that publisher, the subscriber lists stay as they are, and subscriptions made by handlers do not cause undefined behaviour.", "quantifier": "every handler behaviour, any nesting depth, any number of publishers", "why_tests_cant": "Nested notifications of any depth; undefined behaviour may stay invisible.", "anchors": ["src/events/GraphEventPublisher.cpp:notify", "src/events/GraphEventPublisher.cpp:subscribe"]}
{"id": "C71", "title": "A destroyed subscriber is never called", "statement": "After a subscriber was destroyed, no publisher calls it, wherever the destruction happened and however it had subscribed.", "quantifier": "every call sequence over any number of subscribers and publishers", "why_tests_cant": "A use after destruction may stay invisible in a test; all call sequences matter.", "anchors": ["src/events/GraphEventPublisher.cpp:notify", "src/events/GraphEventSubscriber.cpp:~GraphEventSubscriber", "src/events/GraphEventPublisher.cpp:unsubscribe"]}
{"id": "C72", "title": "process() may cause events or throw while the queue is flushed", "statement": "flush() gives every queued event to process() exactly once, also if process() changes the graph (the events caused by it are processed as well) or throws.", "quantifier": "every behaviour of process(), every queue content", "why_tests_cant": "Erasing the element under the iterator may stay invisible in a test; all interactions matter.", "anchors": ["src/events/GraphEventQueue.cpp:flush", "src/events/GraphEventQueue.cpp:notifyGraphEvent"]}
{"id": "C73", "title": "checkWaitingForFrames enables the dispatcher when all awaited frames are available", "statement": "checkWaitingForFrames returns true exactly if no other awaited frame is missing, and then the dispatcher is enabled and forwards the following events.", "quantifier": "every state of a dispatcher, every frame, every later event sequence", "why_tests_cant": "Depends on the state of the dispatcher and on all later events.", "anchors": ["src/events/GraphEventDispatcher.cpp:checkWaitingForFrames", "src/events/GraphEventDispatcher.hpp:checkWaitingForFrames"]}
{"id": "C74", "title": "exteriorDistance is the distance to the nearest point", "statement": "exteriorDistance of a non-empty box to a point is the smallest Euclidean distance of the point to a point of the box; to a non-empty box it is the smallest distance of two points of the boxes. It is zero exactly if the point is in the box, or if the boxes have a common point.", "quantifier": "every non-empty box, every point, every non-empty second box; exact arithmetic", "why_tests_cant": "Speaks about a minimum over all points of a box.", "anchors": ["src/items/AlignedBoundingBox.cpp:exteriorDistance"]}
{"id": "C75", "title": "Extending the boundary of an item affects no other item", "statement": "Extending the boundary of an item by a point or by another item changes the boundary of no other item; the own boundary becomes the smallest box around the old one and what was added.", "quantifier": "every item, every argument, every assignment of boundaries to items", "why_tests_cant": "All assignments of boundaries to items matter, also shared ones.", "anchors": ["src/items/SpatialItem.hpp:extendBoundary", "src/items/SpatialItem.hpp:setBoundary"]}
{"id": "C76", "title": "Threads using the wrapper never block each other for good", "statement": "Threads that use the graph only through locking calls of the thread-safe wrapper, or while they hold its mutex, never deadlock: after every schedule they can all still come to their end, and the owner of the mutex is never blocked, also with nested locking.", "quantifier": "every number of threads, every program of operations (with nested locking), every schedule", "why_tests_cant": "The number of schedules is unbounded.", "anchors": ["src/util/ThreadSaveEnvireGraph.hpp:getThreadSaveAccess", "src/util/ThreadSaveEnvireGraph.hpp:lock", "src/util/ThreadSaveEnvireGraph.hpp:mutex"]}
{"id": "C77", "title": "isSerializable tells whether an item can be saved", "statement": "isSerializable(item) returns true iff save(item) afterwards finds a class name and a handle, it loads a plugin library only if that can help and none twice, it returns false only if no available library provides what is missing, nothing registered is ever lost, and an item that can be saved can still be saved after any further libraries were loaded.", "quantifier": "every set of plugin libraries with any registrations and failures, every state, every sequence of calls", "why_tests_cant": "All combinations of libraries, registrations, failures and load orders.", "anchors": ["src/serialization/Serialization.cpp:isSerializable", "src/serialization/Serialization.hpp:save", "src/plugin/ClassLoader.cpp:loadEnvireItemLibrary", "src/items/ItemMetadata.cpp:addMapping", "src/plugin/Plugin.hpp:ENVIRE_REGISTER_PLUGIN2"]}
{"id": "C78", "title": "A drawing shows exactly the graph", "statement": "The dot file written by GraphDrawing::write can be read back, and shows exactly the frames of the graph with name, number of items and number of items of each type, and exactly its edges between the right frames with their text; so two graphs with different content never have the same drawing.", "quantifier": "every graph that calls can build, every frame name, every set of items and types, every edge text without quotes", "why_tests_cant": "All graphs and all frame names; the tests only check that a file is written.", "anchors": ["src/graph/GraphDrawing.hpp:EnvireGraphVertexWriter", "src/graph/GraphDrawing.hpp:EnvireGraphEdgeWriter", "src/graph/GraphDrawing.hpp:write", "src/util/Demangle.cpp:escapeAngleBraces", "src/items/Frame.hpp:calculateTotalItemCount"]}
{"id": "C79", "title": "Loading a file into a graph with content", "statement": "loadFromFile also works on a graph that already contains data: it does not fail, afterwards every frame name belongs to exactly one vertex, everything in the file can be found by its name, everything else is as before, subscribed tree views stay correct and the events describe the new content.", "quantifier": "every history of the graph, every file that saveToFile wrote for any graph, all names in common or not", "why_tests_cant": "All pairs of a graph and a file; the tests only load into empty graphs, and the source says that nobody knows what happens.", "anchors": ["src/graph/EnvireGraph.cpp:loadFromFile", "src/graph/EnvireGraph.hpp:loadFromFile", "src/graph/Graph.hpp:load", "src/graph/Graph.hpp:regenerateLabelMap"]}
{"id": "C80", "title": "A tree view object can be used again", "statement": "getTree makes the given view a correct view of the current graph whatever the view contained before, also after clear(); a view that was unsubscribed in one of the two documented ways can be subscribed again; rebuildTreeViews makes every subscribed view correct.", "quantifier": "every history of the graph and its views, every old content of the view, every contained frame as new root", "why_tests_cant": "All old contents and all graphs; the tests always use a new view object.", "anchors": ["src/graph/Graph.hpp:getTree", "src/graph/Graph.hpp:unsubscribeTreeView", "src/graph/Graph.hpp:subscribeTreeView", "src/graph/Graph.hpp:rebuildTreeViews", "src/graph/TreeView.cpp:clear", "src/graph/TreeView.cpp:addRoot", "src/graph/TreeView.cpp:setPublisher"]}
{"id": "C81", "title": "The list of possible roots of the structure visualization", "statement": "After new data the structure visualization offers exactly the frames of the graph, each once, with the drawn root first; a chosen root is kept as long as the graph contains it; and after new data and a refresh the window offers these frames and shows the drawn root as chosen.", "quantifier": "every sequence of new data, choices of the user and refreshes", "why_tests_cant": "The order of the events depends on the user and on two threads; there is no test of the visualization.", "anchors": ["viz/EnvireGraphStructureVisualization/EnvireGraphStructureVisualization.cpp:initNodeList", "viz/EnvireGraphStructureVisualization/EnvireGraphStructureVisualization.cpp:getNodes", "viz/EnvireGraphStructureVisualization/EnvireGraphStructureVisualization.cpp:setNodes", "viz/EnvireGraphStructureVisualization/EnvireGraphStructureVisualization.cpp:updateMainNode"]}
{"id": "C82", "title": "The scene of the structure visualization shows the graph", "statement": "The scene drawn for a root contains exactly the frames that are connected with it, each once and at the pose that getTransform from the root tells; every connection between them is drawn exactly once, as a transformation or as a link; drawing never fails.", "quantifier": "every history of the graph, every contained root, every group of poses (also contradicting transforms)", "why_tests_cant": "All graphs and roots; agreement with getTransform on graphs with loops depends on the order of both searches.", "anchors": ["viz/EnvireGraphStructureVisualization/EnvireGraphStructureVisualization.cpp:drawGraphStructure", "viz/EnvireGraphStructureVisualization/EnvireGraphStructureVisualization.cpp:updateDataIntern", "src/graph/Graph.hpp:getTree", "src/graph/TransformGraph.hpp:getTransform"]}
{"id": "C83", "title": "The 2D widget shows the last graph", "statement": "A 2D widget with nothing left to do shows the last text it was given; drawings appear in the order of the texts, each at most once; no renderer is deleted twice or while it is on the screen; a paused widget draws nothing; the layout thread does not crash and ends when the widget is destroyed.", "quantifier": "every interleaving of the window and the layout thread, every sequence of texts, clicks and queued calls", "why_tests_cant": "All interleavings of two threads.", "anchors": ["viz/EnvireGraph2DStructureVisualization/EnvireGraph2DStructurWidget.cpp:layoutGraph", "viz/EnvireGraph2DStructureVisualization/EnvireGraph2DStructurWidget.cpp:displayGraph", "viz/EnvireGraph2DStructureVisualization/EnvireGraph2DStructurWidget.cpp:displaySvg", "viz/EnvireGraph2DStructureVisualization/EnvireGraph2DStructurWidget.cpp:pauseToggled"]}
{"id": "C84", "title": "An item created by its class name can be saved and read by another process", "statement": "With right plugin descriptions, createEnvireItem makes an item of each described class, after any history; the item can be saved at any later time, and every other process with the same plugins can read it and gets an item of the same class.", "quantifier": "every set of plugin libraries and registrations, every history of calls before and after the creation, every history of the reading process", "why_tests_cant": "The result depends on which libraries were loaded before, in which order, in both processes; a test uses one fixed set of plugins in one process.", "anchors": ["src/plugin/ClassLoader.cpp:createEnvireItem", "src/plugin/Plugin.hpp:ENVIRE_REGISTER_ITEM", "src/plugin/Plugin.hpp:ENVIRE_REGISTER_PLUGIN2", "src/serialization/Serialization.hpp:save", "src/serialization/Serialization.hpp:load", "src/serialization/SerializationRegistration.hpp:ENVIRE_REGISTER_SERIALIZATION"]}
{"id": "C85", "title": "Items and collision objects made for a type or an item fit it", "statement": "An item made by createEnvireItemFor(e) says at any later time that its embedded type is e; it is made iff Item<e> or the class associated with e is described, with priority for Item<e>; the collision object made for an item is the one associated with the class of the item; a creation with a down cast throws iff the class is for another type.", "quantifier": "every set of plugin libraries, descriptions and registrations, every history of calls", "why_tests_cant": "All sets of plugins and all orders in which libraries get loaded.", "anchors": ["src/plugin/ClassLoader.cpp:createEnvireItemFor", "src/plugin/ClassLoader.hpp:createCollisionObjectFor", "src/plugin/ClassLoader.hpp:createEnvireItem", "src/items/Item.hpp:getEmbeddedTypeName"]}
{"id": "C86", "title": "A transform that was written is read back until it is written again", "statement": "After a call that writes the transform from a to b (addTransform or updateTransform, by names, vertices or edge), every overload of getTransform returns exactly this transform from a to b, time stamp included, and its inverse from b to a, until a call writes or cuts this pair; every transform that is read was written by such a call; a connection ends only by a call that names it.", "quantifier": "every history of calls of the graph with any tree views, every pair of frames, every transform", "why_tests_cant": "All histories between the write and the read; tests read immediately after the write and compare the pose only.", "anchors": ["src/graph/TransformGraph.hpp:getTransform", "src/graph/TransformGraph.hpp:updateTransform", "src/graph/TransformGraph.hpp:addTransform", "src/graph/TransformGraph.hpp:removeTransform", "src/graph/Graph.hpp:setEdgeProperty"]}
{"id": "C87", "title": "An access object gives exclusive access as long as it exists", "statement": "As long as an access object obtained by getThreadSaveAccess() or a copy of it exists, its thread owns the mutex and all others wait; when the last one is gone and no manual lock is left the mutex is free; destroying an access object is never undefined behaviour.", "quantifier": "every number of threads, every interleaving of taking, copying, assigning and destroying access objects and of manual locks", "why_tests_cant": "All interleavings; the lifetime of the lock depends on which thread destroys the last copy.", "anchors": ["src/util/ThreadSaveEnvireGraph.hpp:GraphAccess", "src/util/ThreadSaveEnvireGraph.hpp:getThreadSaveAccess", "src/util/ThreadSaveEnvireGraph.hpp:lock", "src/util/ThreadSaveEnvireGraph.hpp:unlock"]}
{"id": "C88", "title": "An item saved as a blob comes back, and loading reports failure by its result", "statement": "If saveToBinary returns true, loadFromBinary of the vector returns true with an equal item in every process that knows the class, whatever the vector contained before; load<Archive, T> returns true only with an item of type T; loadFromBinary returns false for all other bytes.", "quantifier": "every item, every registry, every previous content of the vector, every byte sequence, every sequence of typed loads", "why_tests_cant": "All byte sequences and all cut positions; the tests load only what was saved just before into an empty vector and never ask for the wrong type.", "anchors": ["src/serialization/Serialization.cpp:saveToBinary", "src/serialization/Serialization.cpp:loadFromBinary", "src/serialization/Serialization.hpp:load", "src/serialization/BinaryBufferHelper.hpp"]}
{"id": "C89", "title": "File operations succeed or change nothing", "statement": "saveToFile returns normally only if the file contains the whole graph and otherwise throws and leaves the file as it was; loadFromFile that throws leaves the graph as it was; writing a drawing to a file returns normally only if the file contains the drawing.", "quantifier": "every graph, every file content, every position at which a file is cut off, every amount of free space", "why_tests_cant": "Needs full disks, files that cannot be opened and files cut off at every position.", "anchors": ["src/graph/EnvireGraph.cpp:saveToFile", "src/graph/EnvireGraph.cpp:loadFromFile", "src/graph/Graph.hpp:load", "src/graph/GraphDrawing.hpp:write"]}
{"id": "C90", "title": "Callbacks may use the dispatcher while they are called", "statement": "While an event is delivered, callbacks may register callbacks, enable, disable, wait for frames, cause events and throw. The running event goes to exactly the callbacks that were registered for its kind when it came, each once and in order; the delivery ends; no registration is lost; a callback that throws ends only the delivery of the running events.", "quantifier": "every behaviour of every callback, every dispatcher state, every event, every nesting of events", "why_tests_cant": "All behaviours of callbacks, with events inside events; the tests use callbacks that only count. An endless delivery can only be shown by proof.", "anchors": ["src/events/GraphEventDispatcher.cpp:notifyGraphEvent", "src/events/GraphEventDispatcher.cpp:frameAdded", "src/events/GraphEventDispatcher.cpp:addFrameAddedCallback"]}
{"id": "C91", "title": "The text of an exception or event tells what happened", "statement": "Two exceptions with the same text (what()) are of the same class and about the same frames, types and items. The texts of events (operator<<), also written one behind the other, tell the types of the events and their order.", "quantifier": "every pair of exceptions, all frame names and type names; every list of events", "why_tests_cant": "All names, including those that contain the words of the text; the tests only check the class of an exception.", "anchors": ["src/graph/GraphExceptions.hpp:EdgeAlreadyExistsException", "src/graph/GraphExceptions.hpp:UnknownTransformException", "src/graph/GraphExceptions.hpp:UnknownEdgeException", "src/graph/GraphExceptions.hpp:UnknownFrameException", "src/graph/GraphExceptions.hpp:NoItemsOfTypeInFrameException", "src/events/GraphEvent.cpp:33-61"]}
{"id": "C92", "title": "Event handlers may call the graph that published the event", "statement": "Whatever the subscribers of a graph do in their handlers of frame and edge events (call the graph again, throw), a call that ends leaves the graph, the subscribed views and the view objects as some sequence of ordinary calls would have done, and the same events were published.", "quantifier": "every reachable graph, call and handler (any function of event, step and state), any nesting depth", "why_tests_cant": "Tests use handlers that only record; the handlers here are arbitrary programs nested to any depth.", "anchors": ["src/graph/Graph.hpp:560-760", "src/events/GraphEventPublisher.cpp"]}
{"id": "C93", "title": "Handlers of item events may call the graph", "statement": "Whatever the subscribers do when an item is added or removed (call the graph again, throw), a call that ends leaves the graph and the items as some sequence of ordinary calls would have done, with the same events.", "quantifier": "every history, call and handler (any function of event, step and state), any nesting depth", "why_tests_cant": "Handlers are arbitrary programs; the tests only use handlers that record the event.", "anchors": ["src/graph/EnvireGraph.cpp:112-143", "src/graph/EnvireGraph.cpp:209-271", "src/graph/EnvireGraph.hpp:370-410"]}
{"id": "C94", "title": "Slots of tree views that throw do not disturb the graph", "statement": "If a slot that is connected to a signal of a tree view throws, then after the call of the graph that caused the emission the graph, the published events and all views without throwing slots are those that the call leaves without slots.", "quantifier": "every reachable graph, set of views, call and slot behaviour (any function of the view and everything it emitted)", "why_tests_cant": "Which of the emissions throws, how many views are subscribed and the shape of the graph vary without bound; the tests connect slots that only count.", "anchors": ["src/graph/TreeView.cpp:145-157", "src/graph/TreeView.cpp:161-253", "src/graph/Graph.hpp:548-571", "src/graph/Graph.hpp:630-828"]}
{"id": "C95", "title": "An item in a graph may be assigned to", "statement": "If an item is in the list of frame f of a graph, then after an item of the same type is assigned to it (*p = *q) it still is in that list, carries the frame name f and can be removed by its pointer.", "quantifier": "every history of calls and assignments, every two items of the same type, every later history", "why_tests_cant": "All histories before and after the assignment; the tests assign only items that are in no graph.", "anchors": ["src/items/Item.hpp:98-116", "src/items/ItemBase.cpp:45-53", "src/graph/EnvireGraph.cpp:244-271", "src/graph/EnvireGraph.hpp:370-410"]}
{"id": "C96", "title": "Visitors may call the graph", "statement": "A function given to visitVertices may call any method of the graph: the visit calls it once for each vertex, in the order of their creation, also for vertices that it adds, not for vertices that it removed before their turn, and then returns. A function given to visitItems is called once for each item of the frame.", "quantifier": "every graph reached by any history, every visitor whose calls depend in any way on the visited vertices and the present state, every exception thrown by a visitor", "why_tests_cant": "All visitors and all graphs; the tests have one visitor that only counts vertices.", "anchors": ["src/graph/Graph.hpp:1097-1106", "src/graph/Graph.hpp:306-309", "src/graph/EnvireGraph.hpp:297-303", "src/items/Frame.hpp:120-134"]}
{"id": "C97", "title": "A slot of a tree view may unsubscribe views", "statement": "If slots connected to the signals of tree views unsubscribe views (their own or others), a call of the graph that returns without them also returns with them, with the same graph, events and trees; only the views that were unsubscribed are not subscribed any more.", "quantifier": "every state reached by any history with any slots, every call, every choice of views to unsubscribe as a function of the emitting view and all its signals so far", "why_tests_cant": "All graphs, sets of subscribed views and slots; no test unsubscribes a view inside a slot.", "anchors": ["src/graph/Graph.hpp:573-587", "src/graph/Graph.hpp:721-738", "src/graph/TreeView.cpp:104-111"]}
{"id": "C98", "title": "Threads that use several wrapped graphs never block each other for good", "statement": "Whatever the threads did so far, all threads that use several ThreadSaveEnvireGraph objects can still finish: there is never a set of threads that wait for each other's mutexes for ever.", "quantifier": "all programs of all threads (calls, functions run inside of calls, held mutexes, direct accesses), all schedules, any number of graphs", "why_tests_cant": "All interleavings of any number of threads and wrappers; a test sees a deadlock only with the right schedule, and no test uses two wrappers.", "anchors": ["src/util/ThreadSaveEnvireGraph.hpp:62-64", "src/util/ThreadSaveEnvireGraph.hpp:175-200"]}
{"id": "C99", "title": "The behaviour of the graph does not depend on the addresses that the allocator gives out", "statement": "Descriptors are addresses of list nodes, and a new vertex or edge may get the address of a removed one. Whatever addresses the allocator chooses (never one that is in use), every history of calls ends in the same way, with the same graph, the same events and the same subscribed tree views up to an exchange of addresses, and all questions asked with frame names have the same answers.", "quantifier": "all histories of calls, all allocators (also a different one for each call) that never give out memory that is in use", "why_tests_cant": "A test runs with the one allocator of its platform; whether an address is used again depends on the heap.", "anchors": ["src/graph/GraphTypes.hpp:130-134", "src/graph/GraphTypes.hpp:159", "src/graph/Graph.hpp:437-444", "src/graph/Graph.hpp:630-657", "src/graph/TreeView.hpp:29-70", "src/graph/TreeView.cpp:34-84"]}
{"id": "C100", "title": "The iteration order of the children of a tree view makes no difference", "statement": "The children of a vertex in a tree view are stored in a std::unordered_set, whose iteration order is not specified. For every order in which loops over children see the elements, every history of calls on the graph ends in the same way: same graph, events, subscriptions and exceptions, the same relations and cross edges in all views, and no undefined behaviour in one order if there is none in another.", "quantifier": "all histories of calls; all orders of the children, chosen anew before each call", "why_tests_cant": "A test runs with the one hash function and bucket policy of its standard library, and the addresses that are hashed change from run to run.", "anchors": ["src/graph/TreeView.hpp:29-70", "src/graph/TreeView.hpp:115-160", "src/graph/TreeView.cpp:161-253", "src/graph/Graph.hpp:721-729"]}
{"id": "C101", "title": "What the graph does depends on names and connections only, not on the content of frames and transforms", "statement": "Graph<F,E> is a template. For every pair of property types, two histories of calls that differ only in the content of frames and connections have the same exceptions, frames, connections, tree views and events, or both have undefined behaviour. Every translation of the content that respects names and inverses commutes with every call, and every homomorphism of transforms (for example taking the rotation) commutes with getTransform.", "quantifier": "all frame and edge property types; all translations between them; all states and histories of calls; all groups of transforms and homomorphisms", "why_tests_cant": "A test instantiates the template with a few property types and compares a few histories.", "anchors": ["src/graph/Graph.hpp:40-120", "src/graph/Graph.hpp:380-760", "src/graph/TransformGraph.hpp:94-200"]}
{"id": "C102", "title": "The iteration order of the item types of a frame makes no difference", "statement": "The items of a frame are stored in a std::unordered_map by type, whose iteration order is not specified. For every order in which loops see the types, every history of calls on an EnvireGraph has the same exceptions and ends with the same graph, views and items; questions have the same answers; events are the same except that neighbouring events on items of different types of one frame may change places; and a saved file can be loaded in one order if it can be loaded in another.", "quantifier": "all histories of calls; all orders of the types, chosen anew before each call; all items and types; all sets of known classes when loading", "why_tests_cant": "A test runs with the one hash function and bucket policy of its standard library; hash codes of std::type_index differ between compilers.", "anchors": ["src/items/Frame.hpp:57-60", "src/items/Frame.hpp:83-134", "src/items/Frame.hpp:157-270", "src/graph/EnvireGraph.cpp:118-311"]}
{"id": "C103", "title": "Graphs and tree views may be destroyed in any order", "statement": "A program that uses graphs and tree views only while they exist, and calls graphs only in ways that are defined, has no undefined behaviour whatever the order in which it destroys graphs and views. The publisher pointer of a view is always that of the graph it is subscribed to, and an existing graph points to exactly the views that are subscribed to it, once to each, all of them existing.", "quantifier": "all programs that construct, use, move, unsubscribe and destroy any number of graphs and views, with calls that return and calls that throw", "why_tests_cant": "A use of a destroyed graph often goes unnoticed in a test run, and the order of destruction follows from the order of declarations in the program of the user.", "anchors": ["src/graph/TreeView.cpp:48-73", "src/graph/TreeView.cpp:86-90", "src/graph/TreeView.cpp:104-111", "src/graph/TreeView.hpp:74-118", "src/graph/Graph.hpp:61-377"]}
{"id": "C104", "title": "An event queue deletes every event that it copied, once", "statement": "GraphEventQueue::notifyGraphEvent copies each event it keeps with clone(). Every such copy is deleted exactly once, at the latest when its queue is destroyed, and it is not used after that.", "quantifier": "all programs that construct, copy, notify, flush and destroy any number of queues; all events; all behaviours of process() that cause further events or throw", "why_tests_cant": "Leaks and double deletes are invisible in a normal test run, and the amount leaked depends on which events supersede which over the whole run.", "anchors": ["src/events/GraphEventQueue.cpp:31-88", "src/events/GraphEventQueue.hpp:34-54", "src/events/EdgeEvents.hpp:40-70", "src/events/FrameEvents.hpp:39-48"]}
{"id": "C105", "title": "Copies of publishers and subscribers do not disturb the delivery of events", "statement": "Publishers (graphs by assignment, other publishers also by their copy constructor) and subscribers can be copied and assigned. A copy of a publisher has no subscribers of its own, and destroying it has no effect on the original. A copy of a subscriber is not subscribed, and copying leaves the subscription of the original and of all others as it was.", "quantifier": "all programs of subscribe, unsubscribe, destroy, enable and notify calls before the copy; all publishers, subscribers and events; for copies of subscribers all programs with any number of copies", "why_tests_cant": "The effect appears only at a later notification or destruction, depends on the order of the destructors and on the number of subscribers, and is undefined behaviour that may look like success.", "anchors": ["src/events/GraphEventPublisher.hpp:42-96", "src/events/GraphEventSubscriber.hpp:39-58", "src/events/GraphEventPublisher.cpp:112-120", "src/graph/Graph.hpp:402-418"]}
{"id": "C106", "title": "Event handlers that change subscriptions and raise events are safe", "statement": "Event handlers that destroy nothing may subscribe and unsubscribe anybody, raise further events, switch events on and off and throw exceptions, in any combination. No program with such handlers runs into undefined behaviour, apart from an endless recursion.", "quantifier": "all handlers (functions of everything delivered so far), all nestings of events, all publishers and subscribers, all programs before and around the events", "why_tests_cant": "The failure is an invalidated iterator in an outer loop: it depends on which publisher is being notified further out on the stack, on postponed subscriptions of earlier events, and often goes unnoticed at run time.", "anchors": ["src/events/GraphEventPublisher.cpp:47-103", "src/events/GraphEventSubscriber.cpp:43-61"]}
{"id": "C107", "title": "A graph that was assigned is a copy of its own", "statement": "After b = a the graph b has the frames, the edges and all properties that a has at this moment. It keeps them whatever happens to a, including the end of its lifetime, and changes of b do not reach a.", "quantifier": "all graphs that can be made by calls, all programs of calls on a, writes on b and the destruction of a after the assignment, all frames and edges", "why_tests_cant": "Right after the assignment every read gives the right answer. The difference appears only after later changes of the other graph or its destruction, and is then a stale pointer that may still look valid.", "anchors": ["src/graph/Graph.hpp:61-85", "src/graph/Graph.hpp:402-418", "src/graph/Graph.hpp:475-484", "src/graph/Graph.hpp:852-901"]}
{"id": "C108", "title": "Different graphs with own frame and edge classes have different drawings", "statement": "Two graphs with frame and edge classes of the user (Graph and TransformGraph) whose drawings by GraphDrawing::write are the same file have the same frame texts, and the same edges between them with the same texts.", "quantifier": "all pairs of graphs that calls can build, all texts of frames and edges", "why_tests_cant": "The test program draws one graph to a file that nobody compares. The statement is about all pairs of graphs and all texts that toString() may return.", "anchors": ["src/graph/GraphDrawing.hpp:66-83", "src/graph/GraphDrawing.hpp:105-120", "src/graph/GraphDrawing.hpp:178-194"]}
{"id": "C109", "title": "Turning the wheel back restores the zoom", "statement": "In the view of the 2D widget, wheel events whose rotations add up to zero leave the zoom as it was before, and no wheel event makes the drawing disappear or mirrors it.", "quantifier": "all sequences of wheel events (any integer rotations) and all zooms before", "why_tests_cant": "There is no test of the view. A test could try single sequences of wheel events; the statement is about all of them.", "anchors": ["viz/EnvireGraph2DStructureVisualization/QZoomableGraphicsView.cpp:39-46"]}
{"id": "C110", "title": "The loop over the items of a frame removes exactly the chosen items", "statement": "The loop for which removeItemFromFrame returns a pair of iterators (take the pair from getItems, remove an item through the iterator if it is chosen and go on with the returned pair, else advance) ends, leaves exactly the items that were not chosen, in their order, and announces each chosen item once, if every item is listed once and knows its frame.", "quantifier": "all reachable graphs, all frames, all types, all choices of items", "why_tests_cant": "The tests remove through an iterator once. Whether the loop is right depends on which items are chosen, and there are exponentially many choices.", "anchors": ["src/graph/EnvireGraph.hpp:90-104", "src/graph/EnvireGraph.hpp:370-410"]}
{"id": "C111", "title": "Moving an item hands over what it contains", "statement": "After an item was moved, by construction or by assignment, the new object looks like the old one did (class, time, id, frame, content, boundary), and no later changes of one of the two are seen in the other. This holds for Item and for SpatialItem.", "quantifier": "all items, all targets, all contents, all later changes of both objects", "why_tests_cant": "The tests move single items of one type. Which members two objects share afterwards shows only after later changes, for all sequences of them.", "anchors": ["src/items/Item.hpp:78-84", "src/items/Item.hpp:108-116", "src/items/ItemBase.cpp:41-53", "src/items/SpatialItem.hpp:45-61"]}
{"id": "C112", "title": "Typed access finds the items of a class", "statement": "getItems<T>, getItem<T>, getItemCount<T> and containsItems<T> find every item of the frame whose class is T, give only items of class T or of classes that derive from it, and never dereference a null pointer; GraphItemEventDispatcher<T> is called for exactly the same items.", "quantifier": "all item classes with or without their own getTypeInfo, all histories that remove items by pointer and create frames empty, all frames, all classes asked for", "why_tests_cant": "The tests use Item<D> and plugin classes that tell their own type. Whether a class is found depends on which of its ancestors overrides getTypeInfo.", "anchors": ["src/items/Item.hpp:200-203", "src/items/ItemBase.hpp:120-134", "src/items/ItemBase.hpp:187-195", "src/items/SpatialItem.hpp:43-61", "src/graph/EnvireGraph.hpp:283-451", "src/events/GraphItemEventDispatcher.hpp:48-86"]}
{"id": "C113", "title": "Item iterators stay valid until an event tells otherwise", "statement": "An item iterator keeps pointing to the same item, and the range of getItems<T> for its frame and type stays the same list, as long as no published event says that an item of this type was added to or removed from this frame or that the frame was removed.", "quantifier": "all histories of any calls, removal through iterators included, in which frames are made from properties sorted by item type; all further calls; all frames, types and positions", "why_tests_cant": "The tests use an iterator right after they got it. The claim is about every sequence of calls in between, and about the absence of events in it.", "anchors": ["src/graph/EnvireGraph.hpp:66-68", "src/graph/EnvireGraph.hpp:90-115", "src/graph/EnvireGraph.hpp:367-406", "src/graph/EnvireGraph.cpp:110-130", "src/graph/EnvireGraph.cpp:225-271"]}
{"id": "C114", "title": "A computed transform is as recent as the latest transform on the way", "statement": "The transform that getTransform returns between two different frames is the product, by Transform::operator*, of the whole transforms along a path, so that its time stamp is the latest time stamp of the edges used.", "quantifier": "all histories of calls, all pairs of different frames, all time stamps, all three ways of asking (frames, tree view, path)", "why_tests_cant": "The tests of getTransform compare positions and orientations of single graphs without time stamps.", "anchors": ["src/graph/TransformGraph.hpp:94-134", "src/graph/TransformGraph.hpp:148-189", "src/graph/TransformGraph.hpp:191-219", "src/items/Transform.hpp:86-98"]}
{"id": "C115", "title": "Items saved by an older version can still be loaded", "statement": "For both formats of the item map of a frame (class version 0 with size_t numbers and the present version 1 with saveSizeValue), what one branch of save writes the same branch of load reads back completely: the same types, lists, items and members. The version makes no other difference, also for damaged files.", "quantifier": "both versions, all item maps, all registries, all archives", "why_tests_cant": "The tests write files with the present version only; the branches for version 0 are never run by them.", "anchors": ["src/items/Frame.hpp:151", "src/items/Frame.hpp:157-214", "src/items/Frame.hpp:216-270"]}
{"id": "C116", "title": "Handles of frames and edges stay valid until an event announces the removal", "statement": "A vertex descriptor returned by addFrame, emplaceFrame or getVertex denotes its frame until a FrameRemovedEvent for that frame is published. An edge descriptor returned by getEdge denotes the edge between the same two frames, and gives its current property, until an EdgeRemovedEvent for the two frames is published in either direction. No other call ends a handle, whether it succeeds or throws.", "quantifier": "all histories of Graph and EnvireGraph, with any tree views and self edges", "why_tests_cant": "The tests use handles right after they got them; that a handle survives every other call, and is ended only together with an event, is a statement about all histories.", "anchors": ["src/graph/Graph.hpp:87-109", "src/graph/Graph.hpp:176-186", "src/graph/Graph.hpp:210-218", "src/graph/Graph.hpp:617-627", "src/graph/Graph.hpp:866-870", "src/graph/GraphTypes.hpp"]}
{"id": "C117", "title": "Every call causes exactly the events that its documentation names", "statement": "A call of Graph that returns has published exactly the events that its documentation names, in the order of the changes: one FrameAddedEvent per new frame, one EdgeAddedEvent, EdgeModifiedEvent or EdgeRemovedEvent with the given names and the right edge descriptors, one EdgeRemovedEvent per connection for disconnectFrame, one FrameRemovedEvent, and none for queries and tree views. A call that throws has published nothing. The same for adding and removing an item.", "quantifier": "all histories, all calls and arguments", "why_tests_cant": "The tests count events for a few calls; that no call in any state publishes an event too much or too little is a statement about all histories.", "anchors": ["src/graph/Graph.hpp:87-260", "src/graph/Graph.hpp:420-524", "src/graph/Graph.hpp:630-719", "src/graph/Graph.hpp:873-901", "src/graph/EnvireGraph.cpp:113-125", "src/graph/EnvireGraph.cpp:244-271"]}
