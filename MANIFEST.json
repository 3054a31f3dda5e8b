{
 "claims": [
  {
   "property": "C01",
   "status": "proved",
   "theorems": [
    "Verif.C01_names_identify_vertices"
   ],
   "note": "all histories of modelled calls, arbitrary frame/edge types"
  },
  {
   "property": "C02",
   "status": "proved",
   "theorems": [
    "Verif.C02_beside_self_edges",
    "Verif.C02_inverse_pairs"
   ],
   "note": "C02_inverse_pairs for histories without add_edge(a,a) as stated; C02_beside_self_edges: the same for all pairs a != b after every history; the self edges themselves are covered by C03/C11"
  },
  {
   "property": "C03",
   "status": "partial",
   "theorems": [
    "Verif.C03_add_then_remove_partial",
    "Verif.C03_self_edge_always",
    "Verif.C03_self_edge_fails",
    "Verif.C03_self_edge_stays"
   ],
   "note": "proved for a != b; for a = b the removal is undefined behaviour in every state (C03_self_edge_always), and a self edge stays for ever (C03_self_edge_stays)"
  },
  {
   "property": "C04",
   "status": "partial",
   "theorems": [
    "Verif.C04_refines_abstract_graph_partial",
    "Verif.C04_self_edge_fails",
    "Verif.C04_subscribed_view_fails",
    "Verif.C04_tree_history_partial",
    "Verif.C04_with_self_edges_partial",
    "Verif.C04_with_views_partial"
   ],
   "note": "simulation of an abstract graph machine over all histories of calls without self edges: exact without subscribed views or without cycles; with both (C04_with_views_partial) remove_edge and disconnectFrame can also throw after removing edges, shown by C04_subscribed_view_fails; C04_with_self_edges_partial: the same for all histories with self edges, where a write to a self edge stores the inverse, a self edge counts twice and, without views, a call is undefined behaviour exactly if it removes one (C04_self_edge_fails)"
  },
  {
   "property": "C05",
   "status": "proved",
   "theorems": [
    "Verif.C05_failing_call_changes_nothing",
    "Verif.C05_only_documented_throws"
   ],
   "note": "state equality including trace and views; see DESIGN.md for disconnectFrame with subscribed views"
  },
  {
   "property": "C06",
   "status": "proved",
   "theorems": [
    "Verif.C06_removeFrame_decision"
   ],
   "note": "decision logic of removeFrame"
  },
  {
   "property": "C07",
   "status": "partial",
   "theorems": [
    "Verif.C07_beside_self_edges_partial",
    "Verif.C07_disconnectFrame_partial",
    "Verif.C07_self_edge_always",
    "Verif.C07_self_edge_fails",
    "Verif.C07_subscribed_view_fails",
    "Verif.C07_tree_history_partial",
    "Verif.C07_with_views_partial"
   ],
   "note": "proved after every history when no tree view is subscribed (C07_beside_self_edges_partial), or without self edges when there is no cycle; with views and cycles the call can throw half-way, then exactly the published connections are removed (C07_with_views_partial, every history); C07_subscribed_view_fails gives the witness; with a self edge at the frame the call never returns normally (C07_self_edge_always)"
  },
  {
   "property": "C08",
   "status": "proved",
   "theorems": [
    "Verif.C08_events_describe_graph",
    "Verif.C08_loose_observer",
    "Verif.C08_self_edge_announces_twice"
   ],
   "note": "histories without self edges; C08_self_edge_announces_twice shows the exception; an observer that accepts a repeated announcement knows the graph after every history (C08_loose_observer)"
  },
  {
   "property": "C09",
   "status": "proved",
   "theorems": [
    "Verif.C09_publish_current_state",
    "Verif.C09_publish_items",
    "Verif.C09_publish_items_with_self_edges",
    "Verif.C09_publish_loose_observer",
    "Verif.C09_publish_self_edges",
    "Verif.C09_unpublish_current_state",
    "Verif.C09_unpublish_items",
    "Verif.C09_unpublish_items_with_self_edges",
    "Verif.C09_unpublish_self_edges"
   ],
   "note": "histories without self edges (as in the quantifier); graph part for any graph, items for EnvireGraph; also for all histories what is sent: a self edge is published and unpublished twice (C09_publish_self_edges, C09_unpublish_self_edges, C09_publish_loose_observer; with items C09_publish_items_with_self_edges, C09_unpublish_items_with_self_edges)"
  },
  {
   "property": "C10",
   "status": "partial",
   "theorems": [
    "Verif.C10_copy_behaves_alike_partial",
    "Verif.C10_copy_behaves_alike_with_self_edges_partial",
    "Verif.C10_copy_equal_partial",
    "Verif.C10_copy_exact",
    "Verif.C10_copy_of_watched_graph_partial",
    "Verif.C10_removed_frame_fails"
   ],
   "note": "proved for every history in which no frame was created after one that was removed since; exactly for the others copying is undefined behaviour (C10_copy_exact); later calls on the copy and on the original behave alike, also with self edges, with views that are not subscribed any more, and with subscribed views as long as no edge is removed"
  },
  {
   "property": "C11",
   "status": "partial",
   "theorems": [
    "Verif.C11_self_edge_always",
    "Verif.C11_self_edge_fails",
    "Verif.C11_setEdgeProperty_partial"
   ],
   "note": "proved for a != b after every history, self edges and tree views included; for a = b the inverse is stored, in every state (C11_self_edge_always)"
  },
  {
   "property": "C12",
   "status": "partial",
   "theorems": [
    "Verif.C12_handlers_see_event_partial",
    "Verif.C12_inverse_edge_always_there",
    "Verif.C12_inverse_edge_still_there",
    "Verif.C12_with_self_edges_partial"
   ],
   "note": "all events except the EdgeRemoved inverse direction, self edges included (C12_with_self_edges_partial); that direction is still there in every EdgeRemoved event of every history (C12_inverse_edge_always_there)"
  },
  {
   "property": "C13",
   "status": "proved",
   "theorems": [
    "Verif.C13_getFrames_shortest_path"
   ],
   "note": "all histories including self edges and tree views"
  },
  {
   "property": "C14",
   "status": "partial",
   "theorems": [
    "Verif.C14_getFrames_empty_iff_no_path_partial",
    "Verif.C14_same_frame_fails"
   ],
   "note": "proved for a != b; C14_same_frame_fails: getFrames(a,a) is always empty"
  },
  {
   "property": "C15",
   "status": "partial",
   "theorems": [
    "Verif.C15_getTransform_shortest_path_partial",
    "Verif.C15_same_frame",
    "Verif.C15_statement_fails"
   ],
   "note": "All histories, all pairs of frames; false only for the transform from a frame to itself in a graph without edges (C15_statement_fails)."
  },
  {
   "property": "C16",
   "status": "proved",
   "theorems": [
    "Verif.C16_by_frames",
    "Verif.C16_by_path",
    "Verif.C16_by_view",
    "Verif.C16_by_view_with_self_edges"
   ],
   "note": "by frames, by every correct view (self edges in the graph or not), by every path object; by frames with a = b needs at least one edge in the graph (see C15)"
  },
  {
   "property": "C17",
   "status": "proved",
   "theorems": [
    "Verif.C17_compose",
    "Verif.C17_inverse",
    "Verif.C17_poses_exist"
   ],
   "note": "every history that never closes a cycle; exact arithmetic in any group"
  },
  {
   "property": "C18",
   "status": "partial",
   "theorems": [
    "Verif.C18_stale",
    "Verif.C18_stale_with_self_edges",
    "Verif.C18_statement_fails",
    "Verif.C18_unknown_frames",
    "Verif.C18_up_to_date_view",
    "Verif.C18_up_to_date_with_self_edges",
    "Verif.C18_view_transform_partial",
    "Verif.C18_with_self_edges_partial"
   ],
   "note": "Proved for every view that was correct at some time and whose connections all still exist, stale or not, self edges included (C18_with_self_edges_partial); C18_statement_fails: a removed connection of a stale view is skipped silently. C18_stale, C18_stale_with_self_edges: the exact result for every stale view whose frames all still exist, with each missing connection counted as the identity."
  },
  {
   "property": "C19",
   "status": "partial",
   "theorems": [
    "Verif.C19_not_joined_throws",
    "Verif.C19_path_transform_partial",
    "Verif.C19_result_if_connected",
    "Verif.C19_second_call_fails",
    "Verif.C19_statement_fails"
   ],
   "note": "Proved for every path object with at least two frames; C19_statement_fails: after the exception the path is empty and the next call returns the identity."
  },
  {
   "property": "C20",
   "status": "proved",
   "theorems": [
    "Verif.C20_getTree_spans",
    "Verif.C20_getTree_unknown_frame"
   ],
   "note": "all histories including self edges"
  },
  {
   "property": "C21",
   "status": "proved",
   "theorems": [
    "Verif.C21_self_edge_follow_differs",
    "Verif.C21_tree_or_cross",
    "Verif.C21_with_self_edges"
   ],
   "note": "histories without self edges; for all histories the same between different frames, and a self edge is listed twice (C21_with_self_edges), once if the view followed its addition (C21_self_edge_follow_differs)"
  },
  {
   "property": "C22",
   "status": "proved",
   "theorems": [
    "Verif.C22_view_depth_shortest"
   ],
   "note": "every history, every vertex of the view"
  },
  {
   "property": "C23",
   "status": "proved",
   "theorems": [
    "Verif.C23_getTree_subscribes",
    "Verif.C23_getTree_with_self_edges",
    "Verif.C23_subscribed_by_hand",
    "Verif.C23_view_follows_additions",
    "Verif.C23_with_self_edges"
   ],
   "note": "histories without self edges, any number of subscribed views, any sequence of additions; with self edges all views stay correct apart from how often self edges are listed (C23_with_self_edges); the same for views subscribed by hand with subscribeTreeView (C23_subscribed_by_hand)"
  },
  {
   "property": "C24",
   "status": "partial",
   "theorems": [
    "Verif.C24_cross_edge_stale",
    "Verif.C24_exact",
    "Verif.C24_exact_with_self_edges",
    "Verif.C24_fresh_self_edge_fails",
    "Verif.C24_inner_fails",
    "Verif.C24_leaving_fails",
    "Verif.C24_self_edge_fails",
    "Verif.C24_statement_fails",
    "Verif.C24_throws_only",
    "Verif.C24_throws_only_with_self_edges",
    "Verif.C24_tree_history",
    "Verif.C24_tree_removal",
    "Verif.C24_view_follows_removal_partial"
   ],
   "note": "False in general; C24_exact gives the exact condition for every state with correct subscribed views (and any order of the children): remove_edge returns normally iff no cross edge leads out of the part behind a tree edge and the inner ones are closed in reverse order of the list, and then a view follows iff the connection was no cross edge of it. C24_exact_with_self_edges: the same with self edges, C24_self_edge_fails: undefined behaviour below a self edge that a view lists twice; C24_fresh_self_edge_fails: that is the case in every history after getTree with a new view. C24_inner_fails: undefined behaviour otherwise, C24_leaving_fails and C24_throws_only: the exception. Always true in histories that never close a cycle (C24_tree_history, C24_tree_removal); C24_statement_fails refutes the full statement."
  },
  {
   "property": "C25",
   "status": "proved",
   "theorems": [
    "Verif.C25_visitBfs",
    "Verif.C25_visitDfs",
    "Verif.C25_visit_unknown"
   ],
   "note": "every correct view, every order of the children; termination is shown by a bound on the recursion depth"
  },
  {
   "property": "C26",
   "status": "proved",
   "theorems": [
    "Verif.C26_getParent_throws",
    "Verif.C26_isParent_throws",
    "Verif.C26_no_loop",
    "Verif.C26_queries_agree"
   ],
   "note": "every correct view; the throwing conditions on every view"
  },
  {
   "property": "C27",
   "status": "proved",
   "theorems": [
    "Verif.C27_moved_view_subscribed_again",
    "Verif.C27_others_follow_after_graph",
    "Verif.C27_others_still_follow",
    "Verif.C27_others_still_follow_with_self_edges",
    "Verif.C27_unsubscribed_by_graph",
    "Verif.C27_unsubscribed_untouched"
   ],
   "note": "any later calls that do not name the view again; the other views also follow additions in graphs with self edges; the same for graph.unsubscribeTreeView (C27_unsubscribed_by_graph, C27_others_follow_after_graph), after which a view that is moved gets subscribed again (C27_moved_view_subscribed_again)"
  },
  {
   "property": "C28",
   "status": "partial",
   "theorems": [
    "Verif.C28_dirty_iff_event",
    "Verif.C28_not_dirty_with_self_edges",
    "Verif.C28_not_dirty_without_removal",
    "Verif.C28_notices_removal_partial",
    "Verif.C28_notices_removal_with_self_edges_partial",
    "Verif.C28_path_is_connected",
    "Verif.C28_remove_edge_backward_fails",
    "Verif.C28_remove_edge_backward_with_self_edges_fails",
    "Verif.C28_remove_edge_forward",
    "Verif.C28_remove_edge_forward_with_self_edges",
    "Verif.C28_statement_fails"
   ],
   "note": "A path is never dirty without reason, and notices every removal announced in its own direction, self edges in the graph or not; C28_statement_fails: removals announced in the opposite direction are missed."
  },
  {
   "property": "C29",
   "status": "partial",
   "theorems": [
    "Verif.C29_defined",
    "Verif.C29_delivery_partial",
    "Verif.C29_entered_twice_fails",
    "Verif.C29_exactly_once_partial",
    "Verif.C29_publisher_interface"
   ],
   "note": "Every history, every handler behaviour that does not call back. False when a subscriber is entered twice through publisher.subscribe (C29_entered_twice_fails); proved for subscribers that use their own interface."
  },
  {
   "property": "C30",
   "status": "partial",
   "theorems": [
    "Verif.C30_after_event_partial",
    "Verif.C30_delivery_unaffected",
    "Verif.C30_only_subscribing",
    "Verif.C30_programs_partial",
    "Verif.C30_second_subscription_lost",
    "Verif.C30_statement_fails"
   ],
   "note": "The running delivery is never affected, and one event with any handlers ends with the expected list. False for later events: toBeUnsubscribed is never cleared (C30_second_subscription_lost, C30_statement_fails); proved for all programs against a specification that keeps the unsubscribe list, and for handlers that only subscribe."
  },
  {
   "property": "C31",
   "status": "partial",
   "theorems": [
    "Verif.C31_dangling_use",
    "Verif.C31_entered_by_publisher_partial",
    "Verif.C31_even_leaves_dangling",
    "Verif.C31_exact",
    "Verif.C31_fails_always",
    "Verif.C31_odd_is_undefined",
    "Verif.C31_statement_fails"
   ],
   "note": "False for every non-zero number of subscribers that used their own interface: odd numbers are undefined behaviour, even numbers leave every second one with a dangling pointer (C31_fails_always). Exact for lists that mix both kinds (C31_exact): the destructor works if and only if directly before each subscriber that points to the publisher there is one that points nowhere."
  },
  {
   "property": "C32",
   "status": "proved",
   "theorems": [
    "Verif.C32_old_publisher_silent",
    "Verif.C32_one_publisher",
    "Verif.C32_points_to_last",
    "Verif.C32_unsubscribed"
   ],
   "note": "all histories outside of handlers, any number of subscribers and publishers"
  },
  {
   "property": "C33",
   "status": "proved",
   "theorems": [
    "Verif.C33_every_program",
    "Verif.C33_frames_preserved",
    "Verif.C33_graph",
    "Verif.C33_graph_with_self_edges"
   ],
   "note": "every sequence a strict observer accepts, any number of flushes; every history of a graph, self edges included; process() is passive (see C72)"
  },
  {
   "property": "C34",
   "status": "partial",
   "theorems": [
    "Verif.C34_exactly_wrong",
    "Verif.C34_exactly_wrong_in_graphs",
    "Verif.C34_first_flush",
    "Verif.C34_first_flush_with_self_edges",
    "Verif.C34_programs_in_graphs_partial",
    "Verif.C34_programs_partial",
    "Verif.C34_statement_fails",
    "Verif.C34_strict_partial"
   ],
   "note": "Exact: wrong are precisely the connections that existed at the last flush, were removed at least twice and are gone at the end (C34_exactly_wrong, C34_statement_fails); the same for the events of every graph, self edges included (C34_exactly_wrong_in_graphs, any number of flushes: C34_programs_in_graphs_partial). Strict replay of everything works if and only if no connection that existed is removed twice between two flushes."
  },
  {
   "property": "C35",
   "status": "proved",
   "theorems": [
    "Verif.C35_last_modification_delivered",
    "Verif.C35_modified_once"
   ],
   "note": "every sequence of events, valid or not"
  },
  {
   "property": "C36",
   "status": "proved",
   "theorems": [
    "Verif.C36_items_in_order"
   ],
   "note": "every sequence of events, valid or not"
  },
  {
   "property": "C37",
   "status": "partial",
   "theorems": [
    "Verif.C37_forwards",
    "Verif.C37_no_repetitions_partial",
    "Verif.C37_removed_frame_counts",
    "Verif.C37_silent",
    "Verif.C37_statement_fails"
   ],
   "note": "Exact condition for all lists: every name must be announced as often as it was named. The statement as given holds for lists without repetitions and fails for repeated names (C37_statement_fails)."
  },
  {
   "property": "C38",
   "status": "partial",
   "theorems": [
    "Verif.C38_calls_as_registered",
    "Verif.C38_default_constructed_fails",
    "Verif.C38_default_constructed_partial",
    "Verif.C38_kind",
    "Verif.C38_typed_dispatcher"
   ],
   "note": "Proved for all histories of dispatchers made with a publisher, and of default constructed ones that are never disabled; a disabled default constructed one reads an uninitialised member (C38_default_constructed_fails). Callbacks that call back are the subject of C90."
  },
  {
   "property": "C39",
   "status": "partial",
   "theorems": [
    "Verif.C39_every_history_partial",
    "Verif.C39_items_added_and_not_removed_partial",
    "Verif.C39_prefilled_frame_fails",
    "Verif.C39_refines_item_store_partial"
   ],
   "note": "proved for every history of any calls, removal through iterators and frames made from properties with items included, against a specification of what each outcome does to the lists; the statement itself fails there: a frame made from a property lists items that no call added, and an iterator removal of the last item of a type takes out all of them (C41)"
  },
  {
   "property": "C40",
   "status": "proved",
   "theorems": [
    "Verif.C40_add_remove_restores"
   ],
   "note": "every history, also with removal through iterators; frames handed to emplaceFrame hold no empty lists"
  },
  {
   "property": "C41",
   "status": "partial",
   "theorems": [
    "Verif.C41_exact",
    "Verif.C41_last_of_several_fails",
    "Verif.C41_last_removes_all",
    "Verif.C41_remove_by_iterator_partial"
   ],
   "note": "Proved if the item is not the last of several of its type. False otherwise: the whole type is erased (C41_last_of_several_fails, C41_last_removes_all); C41_exact is the exact condition after every history."
  },
  {
   "property": "C42",
   "status": "partial",
   "theorems": [
    "Verif.C42_events_describe_items_partial",
    "Verif.C42_gentle_history_partial",
    "Verif.C42_graph_events_of_item_histories",
    "Verif.C42_graph_events_with_self_edges",
    "Verif.C42_last_removed_fails",
    "Verif.C42_never_misses_partial",
    "Verif.C42_prefilled_frame_fails",
    "Verif.C42_twice_listed_fails"
   ],
   "note": "proved for every history without frames made from properties that contain items and with iterator removals that hit no item listed twice and not the last of several; in all histories without such frames the observer never misses an item; witnesses for the three exceptions; frames and connections also with self edges (C42_graph_events_with_self_edges)"
  },
  {
   "property": "C43",
   "status": "proved",
   "theorems": [
    "Verif.C43_announced_items",
    "Verif.C43_clearFrame"
   ],
   "note": "every history"
  },
  {
   "property": "C44",
   "status": "partial",
   "theorems": [
    "Verif.C44_failed_call_partial",
    "Verif.C44_items_lost_fails",
    "Verif.C44_what_a_failed_call_changes"
   ],
   "note": "False: a connected frame loses its items before the exception (C44_items_lost_fails). Exact description of a failed call; nothing changes if the frame is unknown or has no items."
  },
  {
   "property": "C45",
   "status": "proved",
   "theorems": [
    "Verif.C45_announced_items",
    "Verif.C45_clear",
    "Verif.C45_clear_views",
    "Verif.C45_cycle_fails",
    "Verif.C45_self_edge_always"
   ],
   "note": "no self edges (with one clear never returns: C45_self_edge_always); without subscribed views, or with correct ones and no cycle (with a cycle and a view it throws: C45_cycle_fails)"
  },
  {
   "property": "C46",
   "status": "partial",
   "theorems": [
    "Verif.C46_exact",
    "Verif.C46_filtered_copy_partial",
    "Verif.C46_removed_frame_fails"
   ],
   "note": "proved unless a frame was created after one that was removed since; exactly then the constructor is undefined behaviour (C46_exact)"
  },
  {
   "property": "C47",
   "status": "proved",
   "theorems": [
    "Verif.C47_frame_exists",
    "Verif.C47_frame_exists_with_self_edges",
    "Verif.C47_same_transforms",
    "Verif.C47_structural_copy",
    "Verif.C47_with_self_edges"
   ],
   "note": "with or without self edges (C47_with_self_edges: a self edge is copied as the source answers it), any number of correct views subscribed to the destination; equal transforms in both directions need an involutive inverse; a failed call leaves the frames copied before"
  },
  {
   "property": "C48",
   "status": "partial",
   "theorems": [
    "Verif.C48_cleared_keeps_name",
    "Verif.C48_knows_frame_partial",
    "Verif.C48_last_name",
    "Verif.C48_naming_calls",
    "Verif.C48_removed_has_no_name",
    "Verif.C48_two_frames_fails"
   ],
   "note": "fails for an item added to two frames and for cleared frames (proved); holds for histories that add an item only where it is not stored elsewhere; in every history the name is the one given by the last naming call that returned (C48_naming_calls, C48_last_name)"
  },
  {
   "property": "C49",
   "status": "partial",
   "theorems": [
    "Verif.C49_exact_partial",
    "Verif.C49_other_items_partial",
    "Verif.C49_statement_fails"
   ],
   "note": "fails: copies share the items, so a removal in one graph changes what the other one answers (proved in general); the part about the frames, edges and the other items is proved; C49_exact_partial: after any history of the other graph a removal works exactly if the item is listed in the frame that the last naming call of the other graph gave it"
  },
  {
   "property": "C50",
   "status": "proved",
   "theorems": [
    "Verif.C50_read",
    "Verif.C50_round_trip",
    "Verif.C50_used_vector",
    "Verif.C50_written"
   ],
   "note": "including a vector that is not empty at the start: the old tail stays"
  },
  {
   "property": "C51",
   "status": "proved",
   "theorems": [
    "Verif.C51_load_saved",
    "Verif.C51_round_trip"
   ],
   "note": "token model of the archive; trusted: object tracking of Boost for pointers; the loader knows every class that the saver knows"
  },
  {
   "property": "C52",
   "status": "partial",
   "theorems": [
    "Verif.C52_last_item_partial",
    "Verif.C52_log",
    "Verif.C52_out_of_step",
    "Verif.C52_statement_fails"
   ],
   "note": "fails: an unknown class leaves the item in the archive; proved exactly when the archive is read out of step, and what is loaded if the unknown item is the last one; whenever loading returns, the message tells the right number of missing types"
  },
  {
   "property": "C53",
   "status": "proved",
   "theorems": [
    "Verif.C53_round_trip"
   ],
   "note": "into an empty graph, for every history whose frames are added with proper item maps; types without handle at the saver are missing (theorem says so); trusted: boost_serialization of directed_graph"
  },
  {
   "property": "C54",
   "status": "partial",
   "theorems": [
    "Verif.C54_contains_box_partial",
    "Verif.C54_contains_point",
    "Verif.C54_empty_fails",
    "Verif.C54_order",
    "Verif.C54_smallest_partial"
   ],
   "note": "fails for the empty boxes with crossed corners that intersection returns (proved); holds for non-empty and cleared boxes; any linear order as coordinates, trusted: the functions of Eigen::AlignedBox"
  },
  {
   "property": "C55",
   "status": "partial",
   "theorems": [
    "Verif.C55_common_point_partial",
    "Verif.C55_intersection",
    "Verif.C55_isEmpty",
    "Verif.C55_other_volume",
    "Verif.C55_statement_fails",
    "Verif.C55_symmetric_fails",
    "Verif.C55_what_intersects_says"
   ],
   "note": "fails: intersects tests whether the argument is empty (proved, with the exact description); the correct test is proved for intersection"
  },
  {
   "property": "C56",
   "status": "proved",
   "theorems": [
    "Verif.C56_group_laws",
    "Verif.C56_identity_time",
    "Verif.C56_time"
   ],
   "note": "exact arithmetic in any group, no covariance"
  },
  {
   "property": "C57",
   "status": "proved",
   "theorems": [
    "Verif.C57_escape",
    "Verif.C57_injective",
    "Verif.C57_lossless"
   ],
   "note": "for all strings as lists of characters; trusted: boost::replace_all_copy"
  },
  {
   "property": "C58",
   "status": "proved",
   "theorems": [
    "Verif.C58_one_graph_per_name"
   ],
   "note": "one thread; trusted: new gives an address that is not in use"
  },
  {
   "property": "C59",
   "status": "proved",
   "theorems": [
    "Verif.C59_last_wins",
    "Verif.C59_other_types",
    "Verif.C59_unknown"
   ],
   "note": "one thread; the returned reference is modelled as the value at that moment"
  },
  {
   "property": "C60",
   "status": "proved",
   "theorems": [
    "Verif.C60_envire_graph",
    "Verif.C60_finished",
    "Verif.C60_one_at_a_time",
    "Verif.C60_serial"
   ],
   "note": "any number of threads, any code of the graph functions with paired locking, any schedule; programs that use only locking calls or hold the mutex"
  },
  {
   "property": "C61",
   "status": "partial",
   "theorems": [
    "Verif.C61_containsEdge_races",
    "Verif.C61_half_done_seen",
    "Verif.C61_reference_races",
    "Verif.C61_results_partial",
    "Verif.C61_statement_fails"
   ],
   "note": "fails: containsEdge does not lock and getItems returns a reference (race proved in general, half-done change seen as witness); proved for all other calls"
  },
  {
   "property": "C62",
   "status": "partial",
   "theorems": [
    "Verif.C62_assign_fails",
    "Verif.C62_assign_partial",
    "Verif.C62_clone_fails",
    "Verif.C62_clone_partial",
    "Verif.C62_copy_partial",
    "Verif.C62_fails",
    "Verif.C62_independent_partial"
   ],
   "note": "fails: the clone of a spatial item loses class and boundary, assigned spatial items share the boundary (proved); everything else is proved for all later changes"
  },
  {
   "property": "C63",
   "status": "proved",
   "theorems": [
    "Verif.C63_called",
    "Verif.C63_count",
    "Verif.C63_disconnected",
    "Verif.C63_reachable",
    "Verif.C63_reentrant"
   ],
   "note": "trusted: boost::signals2; callbacks may connect and disconnect while they are called"
  },
  {
   "property": "C64",
   "status": "partial",
   "theorems": [
    "Verif.C64_effect_partial",
    "Verif.C64_fails",
    "Verif.C64_inverted_fails",
    "Verif.C64_witness_fails"
   ],
   "note": "fails: the result is inverted in every case (proved); what the call does is proved"
  },
  {
   "property": "C65",
   "status": "partial",
   "theorems": [
    "Verif.C65_answers_like_box",
    "Verif.C65_no_boundary_partial",
    "Verif.C65_null_argument_fails",
    "Verif.C65_statement_fails"
   ],
   "note": "fails for arguments without boundary (undefined behaviour, proved); everything else is proved"
  },
  {
   "property": "C66",
   "status": "partial",
   "theorems": [
    "Verif.C66_addItem_partial",
    "Verif.C66_fails",
    "Verif.C66_item_of_frame_fails",
    "Verif.C66_outside_partial",
    "Verif.C66_removeFrame_fails",
    "Verif.C66_removeItem_fails",
    "Verif.C66_vertex_partial"
   ],
   "note": "fails: undefined behaviour whenever removeFrame(getFrameId(v)) would work, wrong frame in the event for item->getFrame() (both proved in general); proved for every other kind of reference"
  },
  {
   "property": "C67",
   "status": "partial",
   "theorems": [
    "Verif.C67_assign_dangling_fails",
    "Verif.C67_copy_moved_fails",
    "Verif.C67_copy_partial",
    "Verif.C67_copy_subscribe_fails",
    "Verif.C67_destroy",
    "Verif.C67_edgeRemoved_fails",
    "Verif.C67_fails",
    "Verif.C67_move_consistent",
    "Verif.C67_move_partial",
    "Verif.C67_moved_follows_partial",
    "Verif.C67_moved_follows_with_self_edges_partial"
   ],
   "note": "fails: edgeRemoved is not moved, copies of subscribed views cannot be subscribed (proved); proved for the other signals and the content, for all later calls, self edges included (C67_moved_follows_with_self_edges_partial)"
  },
  {
   "property": "C68",
   "status": "partial",
   "theorems": [
    "Verif.C68_dirty_path_replaced_partial",
    "Verif.C68_opposite_direction_fails"
   ],
   "note": "Everything except later removals announced in the opposite direction (C68_opposite_direction_fails)."
  },
  {
   "property": "C69",
   "status": "partial",
   "theorems": [
    "Verif.C69_changes_ignored_by_next_event",
    "Verif.C69_destroyed_is_called",
    "Verif.C69_destroyed_subscriber_called",
    "Verif.C69_new_subscriber_misses_event",
    "Verif.C69_removed_subscriber_still_called",
    "Verif.C69_statement_fails",
    "Verif.C69_throw_reaches_caller_partial"
   ],
   "note": "The exception reaches the caller after exactly the subscribers before it. False: insideNotify stays set, so that for every program all changes of subscriptions are without effect on the next event (C69_changes_ignored_by_next_event), and destroying a subscriber is undefined at the next event (C69_destroyed_is_called)."
  },
  {
   "property": "C70",
   "status": "partial",
   "theorems": [
    "Verif.C70_nested_events_partial",
    "Verif.C70_order_reversed",
    "Verif.C70_statement_fails"
   ],
   "note": "Proved for handlers that only raise events, at any depth and any publishers. False as soon as they also subscribe (C70_statement_fails); the inner event overtakes the outer one (C70_order_reversed)."
  },
  {
   "property": "C71",
   "status": "partial",
   "theorems": [
    "Verif.C71_destroying_a_later_one_fails",
    "Verif.C71_destroying_handlers",
    "Verif.C71_destroying_oneself",
    "Verif.C71_entered_by_publisher_fails",
    "Verif.C71_inside_handler_fails",
    "Verif.C71_outside_handlers_partial",
    "Verif.C71_statement_fails"
   ],
   "note": "Proved outside of handlers for subscribers that use their own interface; inside handlers the exact condition is proved (C71_destroying_handlers). False for subscribers that stand behind the handler in the list and for subscribers entered through the publisher."
  },
  {
   "property": "C72",
   "status": "partial",
   "theorems": [
    "Verif.C72_adding_partial",
    "Verif.C72_exact_partial",
    "Verif.C72_processed_twice",
    "Verif.C72_removing_fails",
    "Verif.C72_statement_fails",
    "Verif.C72_stuck"
   ],
   "note": "exactly when flush returns, throws or uses an erased iterator is proved for every process(), and what is processed for process() that only adds things; false in general: superseding the event being processed is undefined behaviour, a throwing process() gets the event again each time"
  },
  {
   "property": "C73",
   "status": "partial",
   "theorems": [
    "Verif.C73_result_partial",
    "Verif.C73_statement_fails",
    "Verif.C73_stays_silent"
   ],
   "note": "The returned value is exact; the dispatcher is never enabled by it (C73_statement_fails, C73_stays_silent)."
  },
  {
   "property": "C74",
   "status": "proved",
   "theorems": [
    "Verif.C74_box",
    "Verif.C74_point",
    "Verif.C74_zero"
   ],
   "note": "squared distance in any ordered field; trusted: exteriorDistance of Eigen is its square root"
  },
  {
   "property": "C75",
   "status": "partial",
   "theorems": [
    "Verif.C75_extend_partial",
    "Verif.C75_shared_fails"
   ],
   "note": "fails for items that share a boundary (proved); everything else is proved"
  },
  {
   "property": "C76",
   "status": "proved",
   "theorems": [
    "Verif.C76_no_deadlock",
    "Verif.C76_owner_moves"
   ],
   "note": "finitely many threads, code of the graph functions ends"
  },
  {
   "property": "C77",
   "status": "partial",
   "theorems": [
    "Verif.C77_fails",
    "Verif.C77_false",
    "Verif.C77_kept",
    "Verif.C77_renamed_fails",
    "Verif.C77_save_partial",
    "Verif.C77_settled",
    "Verif.C77_stays_partial"
   ],
   "note": "fails for a type registered under two class names (proved); proved for all others; trusted: plugin_manager"
  },
  {
   "property": "C78",
   "status": "partial",
   "theorems": [
    "Verif.C78_any_graph_partial",
    "Verif.C78_fails",
    "Verif.C78_injective_partial",
    "Verif.C78_round_trip_partial",
    "Verif.C78_same_drawing_fails",
    "Verif.C78_unreadable_fails"
   ],
   "note": "fails for frame names with special characters (proved); round trip and injectivity proved for all others; trusted: boost::write_graphviz"
  },
  {
   "property": "C79",
   "status": "partial",
   "theorems": [
    "Verif.C79_disjoint_partial",
    "Verif.C79_found_partial",
    "Verif.C79_kept_partial",
    "Verif.C79_loads",
    "Verif.C79_shared_fails",
    "Verif.C79_silent_fails"
   ],
   "note": "fails for names that are in the graph and in the file, and for the events (both proved in general); proved what is found and kept in all cases; trusted: boost_serialization does not clear the graph"
  },
  {
   "property": "C80",
   "status": "partial",
   "theorems": [
    "Verif.C80_cleared_partial",
    "Verif.C80_cleared_with_self_edges_partial",
    "Verif.C80_endless_fails",
    "Verif.C80_exact_partial",
    "Verif.C80_rebuild_fails",
    "Verif.C80_resubscribe_partial",
    "Verif.C80_resubscribe_with_self_edges_partial",
    "Verif.C80_same_root_partial",
    "Verif.C80_subscribe_fails",
    "Verif.C80_used_fails"
   ],
   "note": "fails for views with old content, for a second subscription and for rebuildTreeViews (all proved in general); exact condition and the case after clear() proved, the latter also with self edges"
  },
  {
   "property": "C81",
   "status": "partial",
   "theorems": [
    "Verif.C81_offer",
    "Verif.C81_root_kept",
    "Verif.C81_single_choice_fails",
    "Verif.C81_stale_choice_fails",
    "Verif.C81_statement_fails",
    "Verif.C81_window_partial"
   ],
   "note": "offered list and kept root proved for all histories; the window part fails (witnesses proved) and is proved for a window that is refreshed after each update"
  },
  {
   "property": "C82",
   "status": "partial",
   "theorems": [
    "Verif.C82_isolated",
    "Verif.C82_scene_partial",
    "Verif.C82_scene_with_self_edges_partial",
    "Verif.C82_self_edge_fails",
    "Verif.C82_statement_fails",
    "Verif.C82_update_partial",
    "Verif.C82_update_with_self_edges_partial"
   ],
   "note": "fails for a root without connections and for self edges (proved); C82_scene_with_self_edges_partial: drawing is undefined behaviour exactly if the oldest edge of the root is a self edge, any other self edge gives two links, also for new data with any chosen root (C82_update_with_self_edges_partial); all else proved"
  },
  {
   "property": "C83",
   "status": "partial",
   "theorems": [
    "Verif.C83_box",
    "Verif.C83_crash_fails",
    "Verif.C83_latest_partial",
    "Verif.C83_no_crash_partial",
    "Verif.C83_order",
    "Verif.C83_pause_fails",
    "Verif.C83_pause_partial",
    "Verif.C83_renderers",
    "Verif.C83_shown_partial",
    "Verif.C83_statement_fails",
    "Verif.C83_stops"
   ],
   "note": "fails for the pause and for unreadable texts (witnesses proved); all else proved for every interleaving"
  },
  {
   "property": "C84",
   "status": "partial",
   "theorems": [
    "Verif.C84_create",
    "Verif.C84_fails",
    "Verif.C84_fresh",
    "Verif.C84_header",
    "Verif.C84_roundtrip_partial",
    "Verif.C84_two_fails",
    "Verif.C84_unnamed_fails"
   ],
   "note": "fails for types registered with several class names and for the old macro without data type (witnesses proved); proved for all others, and what a new process can read is described exactly"
  },
  {
   "property": "C85",
   "status": "partial",
   "theorems": [
    "Verif.C85_cast",
    "Verif.C85_collision_partial",
    "Verif.C85_embedded_partial",
    "Verif.C85_fails",
    "Verif.C85_renamed_fails",
    "Verif.C85_which"
   ],
   "note": "fails for types registered several times (witnesses proved); proved for all others; which class is made and when the down cast throws is described exactly"
  },
  {
   "property": "C86",
   "status": "partial",
   "theorems": [
    "Verif.C86_by_edge",
    "Verif.C86_cut",
    "Verif.C86_edge_fails",
    "Verif.C86_far_time",
    "Verif.C86_overloads",
    "Verif.C86_read_back_partial",
    "Verif.C86_self_edge_fails",
    "Verif.C86_who_wrote"
   ],
   "note": "fails for getTransform(edge), which loses the time stamp, and for the transform from a frame to itself (witnesses proved); proved for all other reads and all histories, with self edges in the graph, with the converse (who wrote a transform) and what ends a connection"
  },
  {
   "property": "C87",
   "status": "partial",
   "theorems": [
    "Verif.C87_copy_fails",
    "Verif.C87_exclusive_partial",
    "Verif.C87_given_back",
    "Verif.C87_move_fails",
    "Verif.C87_ub_fails",
    "Verif.C87_undefined"
   ],
   "note": "fails for copies made or destroyed by other threads (witnesses proved); proved otherwise; exactly which destructions are undefined is proved"
  },
  {
   "property": "C88",
   "status": "partial",
   "theorems": [
    "Verif.C88_alien_throws",
    "Verif.C88_cut_throws",
    "Verif.C88_empty_throws",
    "Verif.C88_fails",
    "Verif.C88_null",
    "Verif.C88_round_trip_partial",
    "Verif.C88_save_false",
    "Verif.C88_typed_fails",
    "Verif.C88_typed_partial",
    "Verif.C88_unknown"
   ],
   "note": "the round trip is proved for all items and all previous contents; fails for typed loads (true with a null pointer) and for damaged blobs (an exception instead of false), witnesses and the exact behaviour proved"
  },
  {
   "property": "C89",
   "status": "partial",
   "theorems": [
    "Verif.C89_cut",
    "Verif.C89_cut_fails",
    "Verif.C89_draw_fails",
    "Verif.C89_draw_partial",
    "Verif.C89_fails",
    "Verif.C89_full",
    "Verif.C89_left",
    "Verif.C89_load_fails",
    "Verif.C89_load_open",
    "Verif.C89_load_saved",
    "Verif.C89_load_throws_partial",
    "Verif.C89_save_fails",
    "Verif.C89_save_open",
    "Verif.C89_save_reachable",
    "Verif.C89_save_throws",
    "Verif.C89_saved_partial"
   ],
   "note": "success of saveToFile is described exactly, every cut file is noticed and what it leaves is described exactly; fails for full disks (old file lost), failed loads (vertices without name are left) and drawings (silent failure), witnesses and general theorems proved"
  },
  {
   "property": "C90",
   "status": "partial",
   "theorems": [
    "Verif.C90_caused_events",
    "Verif.C90_disabled",
    "Verif.C90_endless_fails",
    "Verif.C90_ends_partial",
    "Verif.C90_exact",
    "Verif.C90_new_callback_fails",
    "Verif.C90_passive",
    "Verif.C90_registered_before_partial",
    "Verif.C90_registrations_kept",
    "Verif.C90_throw"
   ],
   "note": "the calls are described exactly for every behaviour of the callbacks; the statement holds if no callback registers callbacks for the kind of the event, the delivery ends if the events they cause are ranked, and the events caused are exactly those raised by the callbacks that were called (C90_caused_events); fails otherwise (witness and a general endless case proved)"
  },
  {
   "property": "C91",
   "status": "partial",
   "theorems": [
    "Verif.C91_class",
    "Verif.C91_confused_fails",
    "Verif.C91_event_says",
    "Verif.C91_event_text",
    "Verif.C91_fails",
    "Verif.C91_same_text_partial",
    "Verif.C91_what",
    "Verif.C91_zero_fails"
   ],
   "note": "proved for all names where the first separator is the real one (the class is always clear); every other first name is proved to be confused with another, and names with zero characters are cut; events: proved"
  },
  {
   "property": "C92",
   "status": "partial",
   "theorems": [
    "Verif.C92_announced_twice",
    "Verif.C92_dangling",
    "Verif.C92_endless",
    "Verif.C92_frame_still_connected",
    "Verif.C92_half_edge",
    "Verif.C92_histories_partial",
    "Verif.C92_in_order_partial",
    "Verif.C92_listeners",
    "Verif.C92_removed_twice",
    "Verif.C92_set_in_handler",
    "Verif.C92_statement_fails",
    "Verif.C92_view_loses_edge",
    "Verif.C92_views_updated"
   ],
   "note": "proved for every handler that does nothing when the removal of an edge is announced (up to repeated announcements of frames); fails otherwise: general theorems for handlers that throw, remove, set or add in the middle of remove_edge"
  },
  {
   "property": "C93",
   "status": "partial",
   "theorems": [
    "Verif.C93_clear_disturbed",
    "Verif.C93_clear_frame",
    "Verif.C93_empty_entry_seen",
    "Verif.C93_in_order_partial",
    "Verif.C93_iterator_empty_entry_seen",
    "Verif.C93_late_partial",
    "Verif.C93_listeners",
    "Verif.C93_next_item_removed",
    "Verif.C93_remove_frame",
    "Verif.C93_statement_fails",
    "Verif.C93_structure",
    "Verif.C93_structure_with_self_edges",
    "Verif.C93_throw_leaves_entry"
   ],
   "note": "proved for every handler that ignores removals, and for every handler if only calls that publish last are used; for all handlers the structure of the graph (self edges included) and what clearFrame and removeFrame do if they return; fails otherwise (empty entries, invalid iterators, clear)"
  },
  {
   "property": "C94",
   "status": "partial",
   "theorems": [
    "Verif.C94_addition_silent",
    "Verif.C94_disconnect",
    "Verif.C94_getTree",
    "Verif.C94_graph",
    "Verif.C94_observer_misled",
    "Verif.C94_quiet",
    "Verif.C94_removal_complete",
    "Verif.C94_stale_view",
    "Verif.C94_statement_fails",
    "Verif.C94_view_incomplete",
    "Verif.C94_views"
   ],
   "note": "for all slots: the graph is always one that ordinary calls make, remove_edge keeps graph and events complete, and which views are complete, cut or untouched is described exactly; the statement fails because add_edge loses its event, later views are passed over and disconnectFrame stops"
  },
  {
   "property": "C95",
   "status": "partial",
   "theorems": [
    "Verif.C95_fails",
    "Verif.C95_history",
    "Verif.C95_iterator",
    "Verif.C95_remove_partial",
    "Verif.C95_same_frame",
    "Verif.C95_silent",
    "Verif.C95_stuck"
   ],
   "note": "the exact condition under which the item can still be removed (the other item carries the name of a frame that contains it) is proved for all histories, and that it is stuck otherwise; the statement itself fails, as the frame name is overwritten"
  },
  {
   "property": "C96",
   "status": "partial",
   "theorems": [
    "Verif.C96_each_once",
    "Verif.C96_endless_fails",
    "Verif.C96_ends_partial",
    "Verif.C96_items",
    "Verif.C96_items_changed_fails",
    "Verif.C96_longName_new",
    "Verif.C96_remove_visited_fails",
    "Verif.C96_remover_sound",
    "Verif.C96_statement_fails",
    "Verif.C96_visits"
   ],
   "note": "what a visit that returns has visited is proved for every visitor; that it ends is proved for visitors that leave the visited frame and make finitely many frames; the others fail (general theorems)"
  },
  {
   "property": "C97",
   "status": "partial",
   "theorems": [
    "Verif.C97_exact_partial",
    "Verif.C97_getTree_partial",
    "Verif.C97_self_fails",
    "Verif.C97_statement_fails",
    "Verif.C97_throws"
   ],
   "note": "the exact condition is proved: the call is undefined iff a slot ends an existing subscription during the loop over the views, else the slots change nothing; getTree is proved to be safe"
  },
  {
   "property": "C98",
   "status": "partial",
   "theorems": [
    "Verif.C98_deadlock",
    "Verif.C98_defined",
    "Verif.C98_moves_partial",
    "Verif.C98_one_partial",
    "Verif.C98_ordered_partial",
    "Verif.C98_released",
    "Verif.C98_statement_fails"
   ],
   "note": "proved if the wrappers are entered along a relation without cycles (in particular never two at once); a ring of threads each entering the wrapper of the next inside its own is proved to wait for ever"
  },
  {
   "property": "C99",
   "status": "partial",
   "theorems": [
    "Verif.C99_answers",
    "Verif.C99_avoids_partial",
    "Verif.C99_calls_partial",
    "Verif.C99_counter",
    "Verif.C99_forest_partial",
    "Verif.C99_no_views",
    "Verif.C99_published",
    "Verif.C99_stale_edge",
    "Verif.C99_statement_fails",
    "Verif.C99_transforms",
    "Verif.C99_upToDate_partial"
   ],
   "note": "proved for all histories if no address is given out again that a view in use still mentions: always without tree views, and in graphs without cycles while the roots of subscribed views exist; false for a removed root and for a stale cross edge. The iteration order of unordered containers, which also depends on addresses, is the subject of C100"
  },
  {
   "property": "C100",
   "status": "partial",
   "theorems": [
    "Verif.C100_calls_partial",
    "Verif.C100_correct_tidy",
    "Verif.C100_correct_tidy_with_self_edges",
    "Verif.C100_forest",
    "Verif.C100_history_no_removal",
    "Verif.C100_history_partial",
    "Verif.C100_no_removal",
    "Verif.C100_removeEdge_exact",
    "Verif.C100_removeEdge_exact_with_self_edges",
    "Verif.C100_statement_fails",
    "Verif.C100_untidy_fails",
    "Verif.C100_view",
    "Verif.C100_visits"
   ],
   "note": "proved for all calls that remove no connection, for all histories without cycles, and for all histories with tidy views except that undefined behaviour may come in one order and not in another; the exact condition for remove_edge is proved, also with self edges; false in general (two witnesses)"
  },
  {
   "property": "C101",
   "status": "proved",
   "theorems": [
    "Verif.C101_calls",
    "Verif.C101_histories",
    "Verif.C101_no_influence",
    "Verif.C101_no_influence_call",
    "Verif.C101_questions",
    "Verif.C101_transforms"
   ],
   "note": "for all property types that satisfy the law of FrameProp (getId after setId); the drawing and saving functions, which print or write the content, are not part of the claim"
  },
  {
   "property": "C102",
   "status": "partial",
   "theorems": [
    "Verif.C102_breaks",
    "Verif.C102_calls",
    "Verif.C102_events",
    "Verif.C102_files_depend",
    "Verif.C102_files_partial",
    "Verif.C102_histories",
    "Verif.C102_questions",
    "Verif.C102_statement_fails",
    "Verif.C102_subscribers"
   ],
   "note": "proved for all calls, histories, questions and events, and for files if the loader knows the classes of the saver; false for files with an item of an unknown class (every such map has an order that loads and one that does not)"
  },
  {
   "property": "C103",
   "status": "partial",
   "theorems": [
    "Verif.C103_exact_partial",
    "Verif.C103_graph_first_fails",
    "Verif.C103_order_partial",
    "Verif.C103_pointers",
    "Verif.C103_program_exact_partial",
    "Verif.C103_reuse_fails",
    "Verif.C103_statement_fails",
    "Verif.C103_unsubscribed_by_graph_fails",
    "Verif.C103_view_first_partial"
   ],
   "note": "the pointers are proved right in every program; the exact condition for undefined behaviour is proved for every operation and every program; the order graph first, then a subscribed view, is undefined behaviour, also if the graph unsubscribed the view with unsubscribeTreeView (C103_unsubscribed_by_graph_fails)"
  },
  {
   "property": "C104",
   "status": "partial",
   "theorems": [
    "Verif.C104_balance_partial",
    "Verif.C104_copy_fails",
    "Verif.C104_defined_partial",
    "Verif.C104_destroy_leaks",
    "Verif.C104_exact_partial",
    "Verif.C104_flush_clean_partial",
    "Verif.C104_flush_leak_count",
    "Verif.C104_flush_leaks",
    "Verif.C104_leaked_forever",
    "Verif.C104_notify_leaks",
    "Verif.C104_pointers_partial",
    "Verif.C104_refines_partial",
    "Verif.C104_statement_fails",
    "Verif.C104_updates_leak"
   ],
   "note": "without copies of queues no deleted event is used, proved for every program; what each operation leaks is stated exactly, also for flush() with any process() (C104_flush_leaks) and by number (C104_flush_leak_count), and when a program leaks, for process() that supersedes no event; where every stored event of a program ends is stated for every process() (C104_balance_partial); superseded events and events left at destruction are leaked, copies of queues use deleted events"
  },
  {
   "property": "C105",
   "status": "partial",
   "theorems": [
    "Verif.C105_assignment_fails",
    "Verif.C105_copied_publisher_delivers",
    "Verif.C105_copy_dangles",
    "Verif.C105_copy_destroyed",
    "Verif.C105_original_destroyed_first",
    "Verif.C105_statement_fails",
    "Verif.C105_subscribers_partial"
   ],
   "note": "proved for every program that copies subscribers onto unsubscribed ones; copies of publishers, assignments to subscribed subscribers and copies that outlive the publisher violate the statement, proved for every program before the copy"
  },
  {
   "property": "C106",
   "status": "partial",
   "theorems": [
    "Verif.C106_exception_then_raise",
    "Verif.C106_handlers_with_events_partial",
    "Verif.C106_handlers_without_events_partial",
    "Verif.C106_no_undefined_partial",
    "Verif.C106_raise_then_subscribe",
    "Verif.C106_ranked_partial",
    "Verif.C106_statement_fails",
    "Verif.C106_subscribe_then_raise"
   ],
   "note": "proved for every program and every nesting if handlers use each publisher for only one of the two (raising events, changing subscriptions); handlers that do both are undefined from every state (C106_subscribe_then_raise, C106_raise_then_subscribe)"
  },
  {
   "property": "C107",
   "status": "partial",
   "theorems": [
    "Verif.C107_dangles",
    "Verif.C107_follows",
    "Verif.C107_names",
    "Verif.C107_own_lists_partial",
    "Verif.C107_statement_fails",
    "Verif.C107_temporary",
    "Verif.C107_unchanged_partial",
    "Verif.C107_writes_through"
   ],
   "note": "the copied lists of vertices and edges are right and stay (C107_own_lists_partial), all reads are right until a changes (C107_unchanged_partial); otherwise reads and writes by name go to a (C107_follows, C107_writes_through, C107_dangles)"
  },
  {
   "property": "C108",
   "status": "partial",
   "theorems": [
    "Verif.C108_fails",
    "Verif.C108_injective_partial",
    "Verif.C108_round_trip_partial",
    "Verif.C108_same_drawing_fails"
   ],
   "note": "proved for all texts without quotes, with a reader for the files; with quotes two different graphs have the same drawing (witness); trusted: boost::write_graphviz"
  },
  {
   "property": "C109",
   "status": "partial",
   "theorems": [
    "Verif.C109_back_is_smaller",
    "Verif.C109_below_exp",
    "Verif.C109_lost",
    "Verif.C109_mirrored_fails",
    "Verif.C109_notches",
    "Verif.C109_order",
    "Verif.C109_positive_partial",
    "Verif.C109_statement_fails"
   ],
   "note": "fails; proved: the order makes no difference, the scale stays positive without events of ten notches, turning back always leaves the drawing smaller, single notches never restore it; real numbers instead of doubles"
  },
  {
   "property": "C110",
   "status": "partial",
   "theorems": [
    "Verif.C110_exact",
    "Verif.C110_foreign_frame",
    "Verif.C110_listed_twice",
    "Verif.C110_loses_the_rest",
    "Verif.C110_removes_chosen_partial",
    "Verif.C110_statement_fails"
   ],
   "note": "fails if the last item is chosen and another is not: all items of the type are lost; proved exactly otherwise, with events and everything else unchanged; undefined for items listed twice or naming another frame"
  },
  {
   "property": "C111",
   "status": "partial",
   "theorems": [
    "Verif.C111_assign_partial",
    "Verif.C111_construct_partial",
    "Verif.C111_self",
    "Verif.C111_spatial_assign_shares",
    "Verif.C111_spatial_fails",
    "Verif.C111_spatial_shares",
    "Verif.C111_statement_fails"
   ],
   "note": "proved for Item; fails for SpatialItem, which is copied instead of moved, so that both share the boundary (proved in every state); what is left in moved-from strings and data is arbitrary"
  },
  {
   "property": "C112",
   "status": "partial",
   "theorems": [
    "Verif.C112_dispatcher",
    "Verif.C112_dispatcher_never",
    "Verif.C112_exact",
    "Verif.C112_finds_partial",
    "Verif.C112_found_iff",
    "Verif.C112_never_found",
    "Verif.C112_statement_fails"
   ],
   "note": "proved for the classes that tell their own type, with the exact list for every class; fails for the classes that inherit getTypeInfo, which are never found; overriding versions are assumed to name their own class"
  },
  {
   "property": "C113",
   "status": "proved",
   "theorems": [
    "Verif.C113_iterators_stay_valid",
    "Verif.C113_one_warning_for_all",
    "Verif.C113_unsorted_fails"
   ],
   "note": "for histories in which frames are made from properties sorted by type, as the statement says; a witness shows that the assumption is needed; trusted: the storage of a vector in the map of a frame does not move while nobody adds or removes"
  },
  {
   "property": "C114",
   "status": "partial",
   "theorems": [
    "Verif.C114_exact",
    "Verif.C114_far_fails",
    "Verif.C114_partial",
    "Verif.C114_path_time",
    "Verif.C114_statement_fails",
    "Verif.C114_view_time"
   ],
   "note": "proved for connected frames and for graphs without time stamps, and exactly what each of the three calls returns; fails otherwise: the time is 0, or that of the first step of a path"
  },
  {
   "property": "C115",
   "status": "proved",
   "theorems": [
    "Verif.C115_load_saved",
    "Verif.C115_mixed_up",
    "Verif.C115_present",
    "Verif.C115_same_behaviour"
   ],
   "note": "for all versions, maps and archives; also proved: a file loaded with the other version is out of step from the first number on; trusted: Boost keeps the class version with the file, and the byte formats of size_t and saveSizeValue"
  },
  {
   "property": "C116",
   "status": "proved",
   "theorems": [
    "Verif.C116_edge",
    "Verif.C116_edge_any",
    "Verif.C116_edge_end",
    "Verif.C116_frame",
    "Verif.C116_frame_any",
    "Verif.C116_frame_end",
    "Verif.C116_items",
    "Verif.C116_new_frame",
    "Verif.C116_reused"
   ],
   "note": "for all histories of Graph and EnvireGraph; for Graph also with any allocator that uses memory again (C116_frame_any, C116_edge_any); also proved: the event really ends the handle, and with an allocator that uses memory again a stale handle can denote another frame or edge; for EnvireGraph and for the end of a handle, descriptors are never used again"
  },
  {
   "property": "C117",
   "status": "partial",
   "theorems": [
    "Verif.C117_events_partial",
    "Verif.C117_items",
    "Verif.C117_self_edge_twice",
    "Verif.C117_statement_fails",
    "Verif.C117_throw_partial"
   ],
   "note": "proved for all histories with any tree views and self edges; fails for add_edge from a new frame to itself, which announces the frame twice in every state, and for remove_edge and disconnectFrame that throw while a view is subscribed, which have announced the removals made before (C07 says which)"
  }
 ]
}
