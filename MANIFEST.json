{"claims": [
  {"property": "C01", "status": "proved", "theorems": ["Verif.Connection.C01_fifo", "Verif.Connection.C01_fifo_gapChecking", "Verif.Connection.C01_subsequence", "Verif.Connection.C01_drain", "Verif.Connection.C01_packetCount", "Verif.Connection.C01_dequeue"], "note": ""},
  {"property": "C02", "status": "proved", "theorems": ["Verif.Connection.C02_availableSamples", "Verif.Connection.C02_peek"], "note": ""},
  {"property": "C03", "status": "partial", "theorems": ["Verif.Connection.C03_hasEventPacket_partial", "Verif.Connection.C03_noEventMissed_partial", "Verif.Connection.C03_hasGapPacket_partial", "Verif.Connection.C03_violation_gap_dequeueAll", "Verif.Connection.C03_violation_otherEvent"], "note": "Exact when the producer submits only descriptor events and, with gap checking, packets are dequeued one by one; an event is never missed. False in general: the gap counter survives dequeueAll/dequeueUpTo, and other events are never uncounted (violation theorems)."},
  {"property": "C04", "status": "proved", "theorems": ["Verif.Connection.C04_untilEvent", "Verif.Connection.C04_untilDescriptor", "Verif.Connection.C04_untilGap", "Verif.Connection.C04_violation_externalGap"], "note": "Under the connection's contract that gap packets are not submitted by the producer; a violation theorem shows the contract is needed."},
  {"property": "C05", "status": "proved", "theorems": ["Verif.Connection.C05_gapDetection", "Verif.Connection.C05_integer", "Verif.Connection.C05_off"], "note": ""},
  {"property": "C06", "status": "partial", "theorems": ["Verif.Connection.C06_notification_partial", "Verif.Connection.C06_batch_partial", "Verif.Connection.C06_noLostWakeup", "Verif.Connection.C06_violation_dequeueAll"], "note": "Exact notification rule for every history; being told of the empty queue by dequeueAll does not re-arm the notification (violation theorem)."},
  {"property": "C07", "status": "partial", "theorems": ["Verif.Connection.C07_enqueueResult_partial", "Verif.Connection.C07_rejectedNoEffect", "Verif.Connection.C07_noDataWhileInactive", "Verif.Connection.C07_violation_batch"], "note": "Exact result of enqueue for every history; batches drop events on an inactive port (violation theorem)."},
  {"property": "C08", "status": "proved", "theorems": ["Verif.PacketStreaming.C08_no_linear_caching_error", "Verif.PacketStreaming.C08_head_group", "Verif.PacketStreaming.C08_every_group", "Verif.PacketStreaming.C08_non_cacheable", "Verif.PacketStreaming.C08_cacheable_iff", "Verif.PacketStreaming.C08_queue_fifo", "Verif.PacketStreaming.C08_violation_size_wrap"], "note": "For cacheable payload limits below 2^32 - 48 (SizeOK); C08_violation_size_wrap shows the error raised without it."},
  {"property": "C09", "status": "proved", "theorems": ["Verif.PacketStreaming.C09_emitted", "Verif.PacketStreaming.C09_reference_after_payload", "Verif.PacketStreaming.C09_payload_count", "Verif.PacketStreaming.C09_payload_once"], "note": ""},
  {"property": "C10", "status": "proved", "theorems": ["Verif.PacketStreaming.C10_announced", "Verif.PacketStreaming.C10_at_most_once", "Verif.PacketStreaming.C10_flush", "Verif.PacketStreaming.C10_threshold"], "note": ""},
  {"property": "C11", "status": "proved", "theorems": ["Verif.PacketStreaming.C11_exact", "Verif.PacketStreaming.C11_same_packets"], "note": ""},
  {"property": "C12", "status": "partial", "theorems": ["Verif.PacketStreaming.C12_domain_first", "Verif.PacketStreaming.C12_any_order_partial", "Verif.PacketStreaming.C12_violation_handed_over"], "note": "Full for histories in which each packet is sent while the client holds its domain packet (equivalence). In any order: missing the case of a held-back packet sent again with the release mark, where the code keeps the reference for ever (C12_violation_handed_over)."},
  {"property": "C13", "status": "proved", "theorems": ["Verif.Wire.C13_roundtrip", "Verif.Wire.C13_every_word", "Verif.Wire.C13_limit_is_tight", "Verif.Wire.C13_wire"], "note": ""},
  {"property": "C14", "status": "partial", "theorems": ["Verif.Wire.C14_roundtrip_partial", "Verif.Wire.C14_type_and_id", "Verif.Wire.C14_limit", "Verif.Wire.C14_wrong_kind", "Verif.Wire.C14_violation_empty_json", "Verif.Wire.C14_violation_all_versions"], "note": "Every message with a non-empty JSON text and fewer than 65536 versions. An empty JSON text can be created but is refused when parsed, and 65536 versions are announced as none (violation theorems)."},
  {"property": "C15", "status": "partial", "theorems": ["Verif.Wire.C15_received_block", "Verif.Wire.C15_parse_in_bounds_partial", "Verif.Wire.C15_info_reply_iff", "Verif.Wire.C15_violation_info_reply", "Verif.Wire.C15_server_in_bounds"], "note": "All parse functions on every received block except the info reply, whose loop trusts the version count; C15_info_reply_iff says exactly when it leaves the block."},
  {"property": "C16", "status": "partial", "theorems": ["Verif.Wire.C16_announced_iff_accepted", "Verif.Wire.C16_supported_constant", "Verif.Wire.C16_version_change_partial", "Verif.Wire.C16_violation_rejected"], "note": "A version is accepted iff it was announced, in every server state. Missing from the claim as a user would state it: a rejected upgrade still changes the server's version (C16_violation_rejected)."},
  {"property": "C17", "status": "partial", "theorems": ["Verif.Wire.C17_stream", "Verif.Wire.C17_stream_then", "Verif.Wire.C17_sendable", "Verif.Wire.C17_incremental", "Verif.Wire.C17_truncated", "Verif.Wire.C17_in_bounds", "Verif.Wire.C17_packet", "Verif.Wire.C17_packets_end_to_end", "Verif.Wire.C17_header_in_bounds_partial", "Verif.Wire.C17_violation_short_header", "Verif.Wire.C17_violation_event_text", "Verif.Wire.C17_violation_size_wrap"], "note": "Frame codec: all frames, all truncations, all byte strings in bounds. Reading packet fields is in bounds only if the header is as long as its type needs and event texts are terminated; the session layer checks neither (violation theorems). The 32-bit size sum wraps for payloads of nearly 2^32 bytes."},
  {"property": "C18", "status": "proved", "theorems": ["Verif.Streaming.C18_subscribe", "Verif.Streaming.C18_unsubscribe", "Verif.Streaming.C18_unregister", "Verif.Streaming.C18_isSubscribed", "Verif.Streaming.C18_unknown_signal", "Verif.Streaming.C18_alternates", "Verif.Streaming.C18_violation_stale_subscription"], "note": "Reports of subscribe, unsubscribe, disconnect and remove are exact for clients that requested streaming, over every history; the alternation theorem has no restriction. C18_violation_stale_subscription: the subscription of a client that never requested streaming survives its disconnection."},
  {"property": "C19", "status": "partial", "theorems": ["Verif.Streaming.C19_received", "Verif.Streaming.C19_never_fails", "Verif.Streaming.C19_late_subscriber", "Verif.Streaming.C19_batch", "Verif.Streaming.C19_numeric_ids", "Verif.Streaming.C19_violation_unregistered_subscriber"], "note": "Received packets are exactly the expected ones while no publishing call fails; nothing fails if clients subscribe only after requesting streaming and data follows a descriptor. Missing: neither condition is enforced by the manager (C19_violation_unregistered_subscriber: one such client stops delivery to all)."},
  {"property": "C20", "status": "proved", "theorems": ["Verif.Streaming.C20_no_assertion", "Verif.Streaming.C20_write_tasks", "Verif.Streaming.C20_received"], "note": "For every reachable server queue (cacheable limit below 2^32-48) and every memory content behind the buffers. Messages above the transport limit are refused with an exception."},
  {"property": "C21", "status": "proved", "theorems": ["Verif.DataPacket.C21_bulk_is_formula_and_single", "Verif.DataPacket.C21_bounds", "Verif.DataPacket.C21_integer_exact", "Verif.DataPacket.C21_packets_continue", "Verif.DataPacket.C21_range_samples"], "note": ""},
  {"property": "C22", "status": "partial", "theorems": ["Verif.DataPacket.C22_bulk_value", "Verif.DataPacket.C22_bounds_iff", "Verif.DataPacket.C22_violation_write_past_end", "Verif.DataPacket.C22_single_is_previous_partial", "Verif.DataPacket.C22_single_agrees_off_changes_partial", "Verif.DataPacket.C22_violation_single_at_change", "Verif.DataPacket.C22_last_is_single_at_end", "Verif.DataPacket.C22_violation_last_at_change", "Verif.DataPacket.C22_empty_refused"], "note": "Bulk values proved for ordered positions inside the packet, bounds characterised exactly; single values return the previous position (violation), proved to agree off the change positions."},
  {"property": "C23", "status": "partial", "theorems": ["Verif.Reader.C23_nextItems", "Verif.Reader.C23_exactlyOnce", "Verif.Reader.C23_complete", "Verif.Reader.C23_noFault_partial", "Verif.Reader.C23_violation_missingDomainPacket", "Verif.Reader.C23_violation_noDescriptor"], "note": "All histories of queue operations and reads; the absence of hangs and overruns needs a leading descriptor and complete domain packets (violations otherwise)."},
  {"property": "C24", "status": "proved", "theorems": ["Verif.Reader.C24_count", "Verif.Reader.C24_shortRead", "Verif.Reader.C24_skipEvents", "Verif.Reader.C24_invalid", "Verif.Reader.C24_offset"], "note": ""},
  {"property": "C25", "status": "partial", "theorems": ["Verif.Reader.C25_availableCount", "Verif.Reader.C25_availableCount_skipEvents_partial", "Verif.Reader.C25_violation_inconvertible", "Verif.Reader.C25_empty", "Verif.Reader.C25_violation_neverEmpty"], "note": "Exact for readers that report events; with skipEvents exact when every descriptor is convertible (violation otherwise)."},
  {"property": "C26", "status": "partial", "theorems": ["Verif.Reader.Tail.C26_lastSamples_partial", "Verif.Reader.Tail.C26_count_partial", "Verif.Reader.Tail.C26_insufficient", "Verif.Reader.Tail.C26_retains_partial", "Verif.Reader.Tail.C26_bounded_partial", "Verif.Reader.Tail.C26_violation_skipEvents", "Verif.Reader.Tail.C26_violation_gap", "Verif.Reader.Tail.C26_violation_noDomainPacket"], "note": "For readers that report events and histories without gap events and with complete domain packets (violations otherwise)."},
  {"property": "C27", "status": "partial", "theorems": ["Verif.Reader.Block.C27_blocks_partial", "Verif.Reader.Block.C27_available_partial", "Verif.Reader.Block.C27_wholeBlocks_partial", "Verif.Reader.Block.C27_violation_overlapAboveHalf", "Verif.Reader.Block.C27_violation_packetSizes", "Verif.Reader.Block.C27_violation_emptyPacket", "Verif.Reader.Block.C27_violation_bufferOverrun", "Verif.Reader.Block.C27_violation_underreported"], "note": "For reads of at most getAvailableCount blocks (or ended by an event), non-empty packets, and with overlap at most half a block and one packet size; every condition is needed (violations)."},
  {"property": "C28", "status": "proved", "theorems": ["Verif.Security.C28_lastRule", "Verif.Security.C28_path"], "note": "All rule lists, ownership trees and histories in which ownership stays acyclic and owners outlive what they own."},
  {"property": "C29", "status": "proved", "theorems": ["Verif.Security.C29_decision", "Verif.Security.C29_denyWins", "Verif.Security.C29_noGroup", "Verif.Security.C29_groups", "Verif.Security.C29_groupOrder"], "note": "Exact decision; a mask of several bits is satisfied by any one of them."},
  {"property": "C30", "status": "partial", "theorems": ["Verif.Security.C30_current", "Verif.Security.C30_applies", "Verif.Security.C30_terminates", "Verif.Security.C30_violation_ownerDestroyed", "Verif.Security.C30_violation_cycle"], "note": "For histories in which ownership stays acyclic and owners outlive what they own; both conditions are needed (violations)."},
  {"property": "C31", "status": "proved", "theorems": ["Verif.Security.Lock.C31_exclusive", "Verif.Security.Lock.C31_refused", "Verif.Security.Lock.C31_owner", "Verif.Security.Lock.C31_violation_equalUsers"], "note": "All trees, users and histories. The holder can be another object of the same user, which unlock does not recognise (violation)."},
  {"property": "C32", "status": "proved", "theorems": ["Verif.Security.Auth.C32_authenticate", "Verif.Security.Auth.C32_refused", "Verif.Security.Auth.C32_findUser", "Verif.Security.Auth.C32_anonymous", "Verif.Security.Auth.C32_plain", "Verif.Security.Auth.C32_bcrypt", "Verif.Security.Auth.C32_groups", "Verif.Security.Auth.C32_json", "Verif.Security.Auth.C32_session", "Verif.Security.Auth.C32_violation_emptyUser", "Verif.Security.Auth.C32_violation_nullCharacter"], "note": "All user lists, JSON documents, names and passwords; bcrypt is a parameter. Two violations of the intent."},
  {"property": "C33", "status": "partial", "theorems": ["Verif.CoreTypes.C33_simplify", "Verif.CoreTypes.C33_idempotent", "Verif.CoreTypes.C33_equals", "Verif.CoreTypes.C33_equals_partial", "Verif.CoreTypes.C33_equivalence", "Verif.CoreTypes.C33_violation_sign", "Verif.CoreTypes.C33_violation_smallest"], "note": "All ratios without the smallest integer; equality means equal value for denominators of the same sign, otherwise it is violated."},
  {"property": "C34", "status": "proved", "theorems": ["Verif.Component.C34_split", "Verif.Component.C34_splitPath", "Verif.Component.C34_nestedText", "Verif.Component.C34_nested", "Verif.Component.C34_nestedOrder", "Verif.Component.C34_endsWith", "Verif.Component.C34_endsWithPath", "Verif.Component.C34_violation_endsWith"], "note": "All strings. `idEndsWith` is exact on characters but not on path segments (violation)."},
  {"property": "C35", "status": "proved", "theorems": ["Verif.Component.C35_exact", "Verif.Component.C35_globalId", "Verif.Component.C35_unique", "Verif.Component.C35_violation_notFound"], "note": "All trees reachable by creating and adding components with slash-free ids under their own parent; both conditions are needed (violation)."},
  {"property": "C36", "status": "partial", "theorems": ["Verif.Signal.C36_exact", "Verif.Signal.C36_once", "Verif.Signal.C36_terminates", "Verif.Signal.C36_connect", "Verif.Signal.C36_acyclic_partial", "Verif.Signal.C36_violation_setListener", "Verif.Signal.C36_violation_lostConnection"], "note": "The check is exact for all reachable nets. Acyclicity needs listeners to stay as created (violation otherwise)."},
  {"property": "C37", "status": "proved", "theorems": ["Verif.Component.Tags.C37_set", "Verif.Component.Tags.C37_events", "Verif.Component.Tags.C37_equals", "Verif.Component.Tags.C37_roundTrip", "Verif.Component.Tags.C37_client"], "note": "All histories, events, serialization and client mirror."},
  {"property": "C38", "status": "partial", "theorems": ["Verif.Component.Status.C38_add", "Verif.Component.Status.C38_set", "Verif.Component.Status.C38_plain", "Verif.Component.Status.C38_type", "Verif.Component.Status.C38_roundTrip", "Verif.Component.Status.C38_client_partial", "Verif.Component.Status.C38_violation_message", "Verif.Component.Status.C38_violation_added"], "note": "Values, types, events and round trip for all histories; the client mirror holds when no status is added after connecting and none is named Message."},
  {"property": "C39", "status": "partial", "theorems": ["Verif.PropObj.C39_silent", "Verif.PropObj.C39_clear_silent", "Verif.PropObj.C39_clearAll_partial", "Verif.PropObj.C39_read", "Verif.PropObj.C39_violation_clearAll"], "note": "All histories of single calls without handlers; with handlers see C44. Clearing everything at once is right for the properties of the object itself; it leaves the values of class properties (violation)."},
  {"property": "C40", "status": "partial", "theorems": ["Verif.PropObj.C40_accepted", "Verif.PropObj.C40_range", "Verif.PropObj.C40_valid_partial", "Verif.PropObj.C40_selection_partial", "Verif.PropObj.C40_violation_validator", "Verif.PropObj.C40_violation_selection", "Verif.PropObj.C40_violation_shadow"], "note": "Range: all histories, any handlers. Validator and selection list only under the stated conditions, which are needed (violations)."},
  {"property": "C41", "status": "proved", "theorems": ["Verif.PropObj.C41_refused", "Verif.PropObj.C41_readOnly", "Verif.PropObj.C41_violation_batch", "Verif.PropObj.C41_frozen", "Verif.PropObj.C41_frozenHistory"], "note": "All histories and handlers. Inside an update the refusal comes late (violation)."},
  {"property": "C42", "status": "proved", "theorems": ["Verif.PropObj.C42_deferred", "Verif.PropObj.C42_atEnd", "Verif.PropObj.C42_event", "Verif.PropObj.C42_violation_lost", "Verif.PropObj.C42_unmatched"], "note": "All bodies and nestings; handlers arbitrary as long as they do not look at the update flag. A failing call loses the rest (violation)."},
  {"property": "C43", "status": "proved", "theorems": ["Verif.PropObj.C43_names", "Verif.PropObj.C43_once", "Verif.PropObj.C43_distinct"], "note": "All classes, local properties and orders."},
  {"property": "C44", "status": "partial", "theorems": ["Verif.PropObj.C44_violation_residue_class", "Verif.PropObj.C44_unwound_partial", "Verif.PropObj.C44_innermost_partial", "Verif.PropObj.C44_violation_restless", "Verif.PropObj.C44_replaced", "Verif.PropObj.C44_violation_residue", "Verif.PropObj.C44_violation_lost", "Verif.PropObj.C44_violation_event"], "note": "No residue for all histories and handlers in which handlers of the class and of the whole object raise no exception; innermost value for every chain of rewrites that comes to rest; otherwise the call does not return."},
  {"property": "C45", "status": "proved", "theorems": ["Verif.Expr.C45_terminates", "Verif.Expr.C45_grammar", "Verif.Expr.C45_longest", "Verif.Expr.C45_unambiguous", "Verif.Expr.C45_print", "Verif.Expr.C45_precedence", "Verif.Expr.C45_layout", "Verif.Expr.C45_lexer_ends", "Verif.Expr.C45_blanks", "Verif.Expr.C45_text", "Verif.Expr.C45_text_only", "Verif.Expr.C45_violation_trailing", "Verif.Expr.C45_violation_unclosed", "Verif.Expr.C45_violation_high"], "note": "Lexer and parser are each characterised exactly (iff) by separate relations. Violations: trailing tokens ignored, unclosed string dropped, characters outside ASCII undefined."},
  {"property": "C46", "status": "proved", "theorems": ["Verif.Connection.C46_lastDescriptor"], "note": ""},
  {"property": "C47", "status": "proved", "theorems": ["Verif.PacketStreaming.C47_exactly_once", "Verif.PacketStreaming.C47_complete", "Verif.PacketStreaming.C47_waits_for_domain", "Verif.PacketStreaming.C47_violation_reordered"], "note": "Order is not part of the claim: C47_violation_reordered shows a held-back packet delivered after, and with, a later descriptor."},
  {"property": "C48", "status": "proved", "theorems": ["Verif.Wire.C48_handshake"], "note": ""},
  {"property": "C49", "status": "partial", "theorems": ["Verif.Streaming.C49_violation_swapped", "Verif.Streaming.C49_applied_iff_equal_partial"], "note": "Violated: the two settings are exchanged for every client in every history (C49_violation_swapped); they are applied as named only if equal."},
  {"property": "C50", "status": "partial", "theorems": ["Verif.Streaming.C50_lookup_partial", "Verif.Streaming.C50_gone_partial", "Verif.Streaming.C50_violation_foreign_withdrawal"], "note": "Holds while clients withdraw only their own signals; the withdrawal does not check the client (violation theorem)."},
  {"property": "C51", "status": "partial", "theorems": ["Verif.DataPacket.C51_value_by_index_partial", "Verif.DataPacket.C51_index_checked", "Verif.DataPacket.C51_last_of_empty_refused", "Verif.DataPacket.C51_validation", "Verif.DataPacket.C51_violation_explicit_reference_offset", "Verif.DataPacket.C51_violation_float_zero_offset", "Verif.DataPacket.C51_violation_float_offset_accepted", "Verif.DataPacket.C51_violation_constant", "Verif.DataPacket.C51_violation_other_rule"], "note": "For explicit and linear rules and all histories; violated for constant rules, explicit rules with reference domain offset, floats with reference domain offset, custom rules (witnesses)."},
  {"property": "C52", "status": "partial", "theorems": ["Verif.DataPacket.C52_reads_after_any_history_partial", "Verif.DataPacket.C52_reads_external_memory_partial", "Verif.DataPacket.C52_fill_then_read_partial", "Verif.DataPacket.C52_reuse_refusal", "Verif.DataPacket.C52_reported_sizes_partial", "Verif.DataPacket.C52_violation_stale_after_write", "Verif.DataPacket.C52_violation_size_wraps", "Verif.DataPacket.C52_violation_reuse_of_constant"], "note": "All histories of writes, reads and reuses with sizes below 2^32, explicit and linear rules; violations: 32-bit wrap, stale cache after write, reuse of constant rule packets."},
  {"property": "C53", "status": "partial", "theorems": ["Verif.Reader.C53_violation_underflow", "Verif.Reader.C53_violation_any", "Verif.Reader.C53_all_partial", "Verif.Reader.C53_event_partial", "Verif.Reader.C53_notInVain"], "note": "Proved when the current packet holds no more samples than requested; two violations."},
  {"property": "C54", "status": "partial", "theorems": ["Verif.Security.Lock.C54_lock", "Verif.Security.Lock.C54_unlock", "Verif.Security.Lock.C54_force", "Verif.Security.Lock.C54_parentLocked", "Verif.Security.Lock.C54_covered", "Verif.Security.Lock.C54_lockFails_partial", "Verif.Security.Lock.C54_lockKeeps", "Verif.Security.Lock.C54_violation_lostLock", "Verif.Security.Lock.C54_violation_halfUnlocked", "Verif.Security.Lock.C54_violation_newOwner"], "note": "Success conditions and effects exact, coverage for all histories. That a failed call changes nothing is proved for lock when the caller holds nothing below; otherwise and for unlock it is violated."},
  {"property": "C55", "status": "proved", "theorems": ["Verif.CoreTypes.C55_exact", "Verif.CoreTypes.C55_defined", "Verif.CoreTypes.C55_create", "Verif.CoreTypes.C55_integer", "Verif.CoreTypes.C55_violation_unreduced"], "note": "All 64-bit ratios; the conditions for overflow are exact."},
  {"property": "C56", "status": "partial", "theorems": ["Verif.Component.C56_relative", "Verif.Component.C56_absolute", "Verif.Component.C56_single", "Verif.Component.C56_rootGlobal_partial", "Verif.Component.C56_violation_globalId"], "note": "Exact for relative and slash-prefixed ids; a component's own global id is not resolved as one would expect."},
  {"property": "C57", "status": "proved", "theorems": ["Verif.Component.C57_keys", "Verif.Component.C57_agree", "Verif.Component.C57_add", "Verif.Component.C57_remove", "Verif.Component.C57_clear", "Verif.Component.C57_removeSelf", "Verif.Component.C57_acyclic", "Verif.Component.C57_violation_otherItem", "Verif.Component.C57_violation_stale", "Verif.Component.C57_violation_self"], "note": "All histories; three violations at the edges (direct removal, same id in another folder, folder inside itself)."},
  {"property": "C58", "status": "partial", "theorems": ["Verif.Component.C58_own", "Verif.Component.C58_effective_partial", "Verif.Component.C58_set_partial", "Verif.Component.C58_created", "Verif.Component.C58_removed", "Verif.Component.C58_violation_late", "Verif.Component.C58_violation_removedItem"], "note": "For trees in which items are added before their parent changes and no item is removed directly; both are needed."},
  {"property": "C59", "status": "proved", "theorems": ["Verif.PacketBuffer.C59_separate", "Verif.PacketBuffer.C59_packet", "Verif.PacketBuffer.C59_resize", "Verif.PacketBuffer.C59_violation_empty", "Verif.PacketBuffer.C59_violation_overflow", "Verif.PacketBuffer.C59_live"], "note": "Any order of release; packets of no bytes and sizes beyond 64 bits are excluded (violations)."},
  {"property": "C60", "status": "proved", "theorems": ["Verif.PacketBuffer.C60_max", "Verif.PacketBuffer.C60_violation_available"], "note": "Exact for getMaxAvailableContinousSampleCount in every state; the other query is wrong (violation)."},
  {"property": "C61", "status": "partial", "theorems": ["Verif.PacketBuffer.C61_reclaimed_partial", "Verif.PacketBuffer.C61_violation_order", "Verif.PacketBuffer.C61_violation_forever", "Verif.PacketBuffer.C61_violation_half", "Verif.PacketBuffer.C61_violation_full"], "note": "Holds for packets released in the order of creation; lost for good in other orders (violation, with a proof that it never recovers), and packets of more than half the buffer may be refused (violation)."},
  {"property": "C62", "status": "proved", "theorems": ["Verif.Multi.Props.C62_start", "Verif.Multi.Props.C62_violation_beyond", "Verif.Multi.Props.C62_violation_early", "Verif.Multi.Props.C62_violation_lost", "Verif.Multi.Props.C62_violation_gap", "Verif.Multi.Props.C62_violation_stale", "Verif.Multi.Props.C62_violation_synchronized", "Verif.Multi.Props3.C62_ready", "Verif.Multi.Props3.C62_new"], "note": "Start and progress for all sequences of packets and calls, also from a new reader; without the exactness conditions see the violations."},
  {"property": "C63", "status": "proved", "theorems": ["Verif.Multi.Props.C63_delivered", "Verif.Multi.Props.C63_together", "Verif.Multi.Props.C63_equal", "Verif.Multi.Props.C63_violation_apart", "Verif.Multi.Props.C63_violation_skip", "Verif.Multi.Props.C63_violation_rate", "Verif.Multi.Props3.C63_rates"], "note": "Delivery for all sequences, common rate and dividers of a new reader; staying together needs counts that are multiples (reading what is available is enough, C64); violations otherwise."},
  {"property": "C64", "status": "proved", "theorems": ["Verif.Multi.Props.C64_available", "Verif.Multi.Props.C64_amount", "Verif.Multi.Props.C64_bound", "Verif.Multi.Props.C64_violation_zero", "Verif.Multi.Props.C64_violation_hang", "Verif.Multi.Props.C64_violation_divider"], "note": "Reported numbers can be read; 0 may be reported although there are samples, and hanging with a minimal count above 1 (violations)."},
  {"property": "C65", "status": "proved", "theorems": ["Verif.Multi.Props.C65_buffers", "Verif.Multi.Props.C65_violation_earlier", "Verif.Multi.Props.C65_violation_zero", "Verif.Multi.Props.C65_violation_null", "Verif.Multi.Props.C65_violation_event"], "note": "All histories while the reader is valid; violations for invalid readers and for a minimal count above 1."},
  {"property": "C66", "status": "proved", "theorems": ["Verif.Link.Props.C66_agree", "Verif.Link.Props.C66_connect"], "note": "All sequences of calls."},
  {"property": "C67", "status": "proved", "theorems": ["Verif.Link.Props.C67_delivered", "Verif.Link.Props.C67_first", "Verif.Link.Props.C67_ended"], "note": "All reachable states and calls."},
  {"property": "C68", "status": "proved", "theorems": ["Verif.Link.Props.C68_descriptor"], "note": "All sequences of calls in which nobody sends descriptors as packets."},
  {"property": "C69", "status": "partial", "theorems": ["Verif.Link.Props.C69_last_partial", "Verif.Link.Props.C69_not_kept", "Verif.Link.Props.C69_set", "Verif.Link.Props.C69_violation_list"], "note": "All sequences in which lists of packets end in a data packet with samples or have none; violation otherwise."},
  {"property": "C70", "status": "partial", "theorems": ["Verif.Link.Props.C70_buffer_partial", "Verif.Link.Props.C70_violation_scaled"], "note": "All sequences in which no scaling narrows; violation otherwise."},
  {"property": "C71", "status": "partial", "theorems": ["Verif.Link.Props.C71_told_partial", "Verif.Link.Props.C71_violation_refused"], "note": "All sequences in which no listener refuses a connection; violation otherwise."},
  {"property": "C72", "status": "partial", "theorems": ["Verif.Link.Props.C72_domain_partial", "Verif.Link.Props.C72_violation_domain", "Verif.Link.Props.C72_violation_removed", "Verif.Link.Props.C72_violation_inactive"], "note": "Under conditions on domain signals that are listened to, with three violations."},
  {"property": "C73", "status": "proved", "theorems": ["Verif.Multi.Props.C73_report", "Verif.Multi.Props.C73_invalid", "Verif.Multi.Props.C73_valid", "Verif.Multi.Props.C73_stays", "Verif.Multi.Props.C73_domain", "Verif.Multi.Props.C73_gap", "Verif.Multi.Props.C73_told"], "note": "All states and queues. What readWithDomain of a reader that became invalid reports is the subject of C65_violation_event."},
  {"property": "C74", "status": "proved", "theorems": ["Verif.Lifetime.Props.C74_no_use_after_free", "Verif.Lifetime.Props.C74_alive", "Verif.Lifetime.Props.C74_once", "Verif.Lifetime.Props.C74_destroyed_for_good"], "note": "Any number of clients and calls, all interleavings of their atomic steps (sequentially consistent)."},
  {"property": "C75", "status": "proved", "theorems": ["Verif.Lifetime.Props.C75_got", "Verif.Lifetime.Props.C75_gone", "Verif.Lifetime.Props.C75_never_gone", "Verif.Lifetime.Props.C75_weak_alive"], "note": "Any number of clients and calls, all interleavings of their atomic steps (sequentially consistent)."},
  {"property": "C76", "status": "proved", "theorems": ["Verif.Lifetime.Props.C76_destroyed", "Verif.Lifetime.Props.C76_no_leak", "Verif.Lifetime.Props.C76_calls_return"], "note": "Any number of clients and calls, all interleavings of their atomic steps (sequentially consistent)."},
  {"property": "C77", "status": "proved", "theorems": ["Verif.SmartPtr.Props.C77_no_use_after_free", "Verif.SmartPtr.Props.C77_alive", "Verif.SmartPtr.Props.C77_no_leak", "Verif.SmartPtr.Props.C77_usable", "Verif.SmartPtr.Props.C77_assign", "Verif.SmartPtr.Props.C77_give", "Verif.SmartPtr.Props.C77_convert"], "note": "All programs, any number of variables and objects."},
  {"property": "C78", "status": "partial", "theorems": ["Verif.SmartPtr.Props.C78_violation_conversion", "Verif.SmartPtr.Props.C78_violation_terminate", "Verif.SmartPtr.Props.C78_violation_own_view", "Verif.SmartPtr.Props.C78_violation_own_raw", "Verif.SmartPtr.Props.C78_violation_out_param", "Verif.SmartPtr.Props.C78_violation_detach", "Verif.SmartPtr.Props.C78_failed_conversion_partial"], "note": "The code violates the claim in several ways (see the witnesses). Proved: a failed conversion into an unassigned variable changes nothing."},
  {"property": "C79", "status": "proved", "theorems": ["Verif.Values.Props.C79_decides", "Verif.Values.Props.C79_refl", "Verif.Values.Props.C79_symm", "Verif.Values.Props.C79_trans"], "note": "All values of any depth; `HashOk` states what the C++ standard requires of std::hash."},
  {"property": "C80", "status": "partial", "theorems": ["Verif.Values.Props.C80_null_violation", "Verif.Values.Props.C80_null_item_violation", "Verif.Values.Props.C80_null_string_violation", "Verif.Values.Props.C80_zero_violation", "Verif.Values.Props.C80_nan_violation", "Verif.Values.Props.C80_equals_partial", "Verif.Values.Props.C80_null_value_violation", "Verif.Values.Props.C80_strings_partial"], "note": "The code violates the claim (see the witnesses). Proved for plain values."},
  {"property": "C81", "status": "proved", "theorems": ["Verif.Values.Props.C81_hash", "Verif.Values.Props.C81_map", "Verif.Values.Props.C81_no_crash", "Verif.Values.Props.C81_hash_strings"], "note": "All sequences of calls."},
  {"property": "C82", "status": "partial", "theorems": ["Verif.Values.Props.C82_ratio_violation", "Verif.Values.Props.C82_null_violation", "Verif.Values.Props.C82_float_violation", "Verif.Values.Props.C82_map_partial"], "note": "The code violates the claim (see the witnesses). Proved for keys with content-based hash codes."},
  {"property": "C83", "status": "proved", "theorems": ["Verif.Values.Props.C83_content", "Verif.Values.Props.C83_new", "Verif.Values.Props.C83_equal"], "note": "All values."},
  {"property": "C84", "status": "proved", "theorems": ["Verif.Values.Props.C84_bool", "Verif.Values.Props.C84_int", "Verif.Values.Props.C84_float", "Verif.Values.Props.C84_string", "Verif.Values.Props.C84_equals"], "note": "All pairs of one kind."},
  {"property": "C85", "status": "partial", "theorems": ["Verif.Values.Props.C85_complex_violation", "Verif.Values.Props.C85_mixed_violation", "Verif.Values.Props.C85_bool_violation", "Verif.Values.Props.C85_nan_violation", "Verif.Values.Props.C85_float_int_partial", "Verif.Values.Props.C85_int_float_partial"], "note": "The code violates the claim (see the witnesses). Proved: a float compared with an integer below 2^53."},
  {"property": "C86", "status": "proved", "theorems": ["Verif.Values.Props.C86_round_trip", "Verif.Values.Props.C86_id", "Verif.Values.Props.C86_id_strict"], "note": "JSON text itself is rapidjson's; exact reading of floats is the hypothesis `rt f = f`."},
  {"property": "C87", "status": "partial", "theorems": ["Verif.Values.Props.C87_zero_violation", "Verif.Values.Props.C87_key_violation", "Verif.Values.Props.C87_complex_violation", "Verif.Values.Props.C87_null_key_violation", "Verif.Values.Props.C87_throw_violation", "Verif.Values.Props.C87_id_violation", "Verif.Values.Props.C87_round_trip_partial"], "note": "The code violates the claim (see the witnesses). Proved for storable values."},
  {"property": "C88", "status": "proved", "theorems": ["Verif.Values.Props.C88_step", "Verif.Values.Props.C88_bounds", "Verif.Values.Props.C88_objects", "Verif.Values.Props.C88_success"], "note": "All lists and sequences of calls."},
  {"property": "C89", "status": "partial", "theorems": ["Verif.Values.Props.C89_null_violation", "Verif.Values.Props.C89_int_violation", "Verif.Values.Props.C89_int_partial"], "note": "The code violates the claim (see the witnesses). Proved for 32-bit integers."},
  {"property": "C90", "status": "proved", "theorems": ["Verif.Bulk.Props.C90_accepted", "Verif.Bulk.Props.C90_inside", "Verif.Bulk.Props.C90_apart", "Verif.Bulk.Props.C90_aligned", "Verif.Bulk.Props.C90_complete"], "note": "All numbers and sizes without overflow of the address space."},
  {"property": "C91", "status": "partial", "theorems": ["Verif.Bulk.Props.C91_align_violation", "Verif.Bulk.Props.C91_mixed_violation", "Verif.Bulk.Props.C91_overlap_violation", "Verif.Bulk.Props.C91_align_partial"], "note": "The code violates the claim (see the witnesses). Proved: an aligned block gives aligned buffers."},
  {"property": "C92", "status": "proved", "theorems": ["Verif.Bulk.Props.C92_no_use_after_free", "Verif.Bulk.Props.C92_alive", "Verif.Bulk.Props.C92_once", "Verif.Bulk.Props.C92_no_leak"], "note": "All interleavings of sequentially consistent atomic steps."},
  {"property": "C93", "status": "partial", "theorems": ["Verif.Bulk.Props.C93_late_violation", "Verif.Bulk.Props.C93_domain_violation", "Verif.Bulk.Props.C93_notified_partial"], "note": "The code violates the claim (see the witnesses). Proved: in the end every subscriber was told once."},
  {"property": "C94", "status": "proved", "theorems": ["Verif.Event.Props.C94_calls", "Verif.Event.Props.C94_result", "Verif.Event.Props.C94_history"], "note": "All histories; handlers are recognized by their hash codes, see C97."},
  {"property": "C95", "status": "proved", "theorems": ["Verif.Event.Props.C95_subscribed", "Verif.Event.Props.C95_once", "Verif.Event.Props.C95_added"], "note": "All programs of the stated kind."},
  {"property": "C96", "status": "partial", "theorems": ["Verif.Event.Props.C96_skip_violation", "Verif.Event.Props.C96_destroyed_violation", "Verif.Event.Props.C96_endless_violation", "Verif.Event.Props.C96_called_partial"], "note": "The code violates the claim (see the witnesses). Proved for handlers that do not remove or mute."},
  {"property": "C97", "status": "partial", "theorems": ["Verif.Event.Props.C97_temporary_violation", "Verif.Event.Props.C97_copy_violation", "Verif.Event.Props.C97_sources_partial"], "note": "The code violates the claim (see the witnesses). Proved for functions and methods."},
  {"property": "C98", "status": "proved", "theorems": ["Verif.Search.Props.C98_accepts", "Verif.Search.Props.C98_visits"], "note": "All filters and components."},
  {"property": "C99", "status": "partial", "theorems": ["Verif.Search.Props.C99_violation_not_enters", "Verif.Search.Props.C99_violation_search", "Verif.Search.Props.C99_enters_at_least_partial"], "note": "The code violates the claim (see the witnesses). Proved: a search enters at least what is documented."},
  {"property": "C100", "status": "proved", "theorems": ["Verif.Search.Props.C100_exact", "Verif.Search.Props.C100_once", "Verif.Search.Props.C100_flat", "Verif.Search.Props.C100_own_first", "Verif.Search.Props.C100_no_filter"], "note": "All trees with distinct global ids, all filters."},
  {"property": "C101", "status": "proved", "theorems": ["Verif.Search.Props.C101_signals", "Verif.Search.Props.C101_signals_once", "Verif.Search.Props.C101_signals_recursive", "Verif.Search.Props.C101_signals_own", "Verif.Search.Props.C101_ports", "Verif.Search.Props.C101_ports_once", "Verif.Search.Props.C101_ports_own"], "note": "All trees with distinct global ids whose default folders hold what they are meant to hold, all filters."},
  {"property": "C102", "status": "proved", "theorems": ["Verif.Search.Props.C102_channels_own", "Verif.Search.Props.C102_channels_no_filter", "Verif.Search.Props.C102_channels", "Verif.Search.Props.C102_channels_once", "Verif.Search.Props.C102_channels_recursive", "Verif.Search.Props.C102_devices", "Verif.Search.Props.C102_devices_once", "Verif.Search.Props.C102_devices_own"], "note": "All trees with distinct global ids, all filters."},
  {"property": "C103", "status": "partial", "theorems": ["Verif.Search.Props.C103_violation_device_nested", "Verif.Search.Props.C103_violation_device_channel", "Verif.Search.Props.C103_violation_throws", "Verif.Search.Props.C103_device_partial", "Verif.Search.Props.C103_own_partial", "Verif.Search.Props.C103_block_partial"], "note": "The code violates the claim (see the witnesses). Proved: what a device does return; function blocks with filters that want function blocks only; listings that are not recursive."},
  {"property": "C104", "status": "proved", "theorems": ["Verif.Search.Props.C104_no_signal_missed", "Verif.Search.Props.C104_agrees"], "note": "All trees of the stated shape."},
  {"property": "C105", "status": "proved", "theorems": ["Verif.Mirror.Props.C105_rightly_served"], "note": "All histories that keep the rules, any number of signals and sources."},
  {"property": "C106", "status": "proved", "theorems": ["Verif.Mirror.Props.C106_calls_succeed"], "note": "All histories that keep the rules."},
  {"property": "C107", "status": "partial", "theorems": ["Verif.Mirror.Props.C107_violation_domain_replaced", "Verif.Mirror.Props.C107_violation_failed_connection", "Verif.Mirror.Props.C107_violation_failed_request", "Verif.Mirror.Props.C107_violation_domain_removed_first", "Verif.Mirror.Props.C107_violation_similar_ids", "Verif.Mirror.Props.C107_only_what_is_offered_partial"], "note": "The code violates the claim (see the witnesses). Proved for all histories: a server is asked only for what it offers."},
  {"property": "C108", "status": "proved", "theorems": ["Verif.Mirror.Props.C108_only_from_the_active_source", "Verif.Mirror.Props.C108_data_arrive"], "note": "First part for all states and calls, second for all histories that keep the rules."},
  {"property": "C109", "status": "partial", "theorems": ["Verif.MirrorEv.Props.C109_informed_partial", "Verif.MirrorEv.Props.C109_violation_value_first", "Verif.MirrorEv.Props.C109_violation_second_connection", "Verif.MirrorEv.Props.C109_violation_missing"], "note": "The code violates the claim (see the witnesses). Proved for all histories that keep the rules."},
  {"property": "C110", "status": "proved", "theorems": ["Verif.Remote.Props.C110_client_follows", "Verif.Remote.Props.C110_client_follows_dependent"], "note": "All histories and trees of the stated kinds."},
  {"property": "C111", "status": "partial", "theorems": ["Verif.Remote.Props.C111_batch_partial", "Verif.Remote.Props.C111_violation_refused_value", "Verif.Remote.Props.C111_violation_handler", "Verif.Remote.Props.C111_violation_default"], "note": "The code violates the claim (see the witnesses). Proved for accepted values, handlers that set nothing else and acceptable defaults."},
  {"property": "C112", "status": "partial", "theorems": ["Verif.Remote.Props.C112_connect_partial", "Verif.Remote.Props.C112_violation_dependent_limit", "Verif.Remote.Props.C112_violation_coercer", "Verif.Remote.Props.C112_violation_early_event"], "note": "The code violates the claim (see the witnesses). Proved for properties with limits of their own and no change during the connection, with any history afterwards."},
  {"property": "C113", "status": "partial", "theorems": ["Verif.Remote.Props.C113_update_partial", "Verif.Remote.Props.C113_violation_child_property", "Verif.Remote.Props.C113_violation_tags", "Verif.Remote.Props.C113_violation_dependent_limit"], "note": "The code violates the claim (see the witnesses). Proved, at all depths, for values, attributes, statuses, removed items and properties, new items, and new properties of the component itself."},
  {"property": "C114", "status": "proved", "theorems": ["Verif.Remote.Props.C114_set_through_client", "Verif.Remote.Props.C114_refused_value"], "note": "All trees, paths and values, for properties with limits of their own."},
  {"property": "C115", "status": "partial", "theorems": ["Verif.Remote.Props.C115_component_partial", "Verif.Remote.Props.C115_violation_clear_nested", "Verif.Remote.Props.C115_violation_protected_nested"], "note": "The code violates the claim for nested objects (see the witnesses). Proved for the component itself."},
  {"property": "C116", "status": "partial", "theorems": ["Verif.Remote.Props.C116_attributes_partial", "Verif.Remote.Props.C116_violation_status_added", "Verif.Remote.Props.C116_violation_active_locked"], "note": "The code violates the claim (see the witnesses). Proved for statuses that the client knows and an unlocked active state."},
  {"property": "C117", "status": "proved", "theorems": ["Verif.Types.Props.C117_map", "Verif.Types.Props.C117_add", "Verif.Types.Props.C117_remove", "Verif.Types.Props.C117_listener"], "note": "All histories; for types whose comparison gives an answer (see C120 for types with null defaults)."},
  {"property": "C118", "status": "proved", "theorems": ["Verif.Types.Props.C118_created", "Verif.Types.Props.C118_null", "Verif.Types.Props.C118_derived"], "note": "All managers, types and dictionaries with distinct names of fields (see C119)."},
  {"property": "C119", "status": "partial", "theorems": ["Verif.Types.Props.C119_fields_partial", "Verif.Types.Props.C119_violation_enum", "Verif.Types.Props.C119_violation_default", "Verif.Types.Props.C119_violation_twice", "Verif.Types.Props.C119_violation_dictionary", "Verif.Types.Props.C119_violation_frozen"], "note": "The code violates the claim (see the witnesses). Proved for types without enumeration fields and with defaults of the right types."},
  {"property": "C120", "status": "partial", "theorems": ["Verif.Types.Props.C120_equal_partial", "Verif.Types.Props.C120_same", "Verif.Types.Props.C120_types", "Verif.Types.Props.C120_violation_null", "Verif.Types.Props.C120_violation_type", "Verif.Types.Props.C120_violation_order"], "note": "The code violates the claim (see the witnesses). Proved: the answer is yes exactly for structs with the same type, fields and order."},
  {"property": "C121", "status": "proved", "theorems": ["Verif.Types.Props.C121_history", "Verif.Types.Props.C121_set", "Verif.Types.Props.C121_built", "Verif.Types.Props.C121_absent", "Verif.Types.Props.C121_from"], "note": "All types with distinct names of fields and defaults of the right core types, all histories of `set` and `build`."},
  {"property": "C122", "status": "partial", "theorems": ["Verif.Types.Props.C122_violation_null", "Verif.Types.Props.C122_violation_values", "Verif.Types.Props.C122_violation_build", "Verif.Types.Props.C122_violation_undefined", "Verif.Types.Props.C122_values_partial"], "note": "The code violates the claim (see the witnesses). Proved: what setFieldValues does, for all values."},
  {"property": "C123", "status": "proved", "theorems": ["Verif.Types.Props.C123_type", "Verif.Types.Props.C123_values", "Verif.Types.Props.C123_dictionary"], "note": "All lists, dictionaries and first values."},
  {"property": "C124", "status": "partial", "theorems": ["Verif.Types.Props.C124_reload_partial", "Verif.Types.Props.C124_violation_ratio", "Verif.Types.Props.C124_violation_simple", "Verif.Types.Props.C124_violation_replaced", "Verif.Types.Props.C124_violation_empty"], "note": "The code violates the claim (see the witnesses). Proved for managers whose types have consistent parts with free names: all types are there after reading, and nothing but them and their parts."},
  {"property": "C125", "status": "proved", "theorems": ["Verif.Types.Props.C125_value", "Verif.Types.Props.C125_created", "Verif.Types.Props.C125_enumeration"], "note": "All values and managers."},
  {"property": "C126", "status": "partial", "theorems": ["Verif.Types.Props.C126_unknown_partial", "Verif.Types.Props.C126_violation_default", "Verif.Types.Props.C126_violation_removed"], "note": "The code violates the claim (see the witnesses). Proved: a struct of simple values is read back with the same fields."},
  {"property": "C127", "status": "proved", "theorems": ["Verif.Classes.Props.C127_get", "Verif.Classes.Props.C127_has", "Verif.Classes.Props.C127_own", "Verif.Classes.Props.C127_stable", "Verif.Classes.Props.C127_broken"], "note": "All managers and chains of any length, given room on the stack."},
  {"property": "C128", "status": "partial", "theorems": ["Verif.Classes.Props.C128_chain_partial", "Verif.Classes.Props.C128_violation_child_first", "Verif.Classes.Props.C128_violation_parent_removed", "Verif.Classes.Props.C128_violation_cycle"], "note": "The code violates the claim (see the witnesses). Proved for histories that keep to the documentation."},
  {"property": "C129", "status": "partial", "theorems": ["Verif.Classes.Props.C129_list_partial", "Verif.Classes.Props.C129_own", "Verif.Classes.Props.C129_violation_twice", "Verif.Classes.Props.C129_violation_update"], "note": "The code violates the claim (see the witnesses). Proved: without overriding, or with a custom order, every property once; names in order in any case."},
  {"property": "C130", "status": "proved", "theorems": ["Verif.Classes.Props.C130_object"], "note": "All chains, properties and orders."},
  {"property": "C131", "status": "proved", "theorems": ["Verif.Classes.Props.C131_add", "Verif.Classes.Props.C131_history", "Verif.Classes.Props.C131_remove", "Verif.Classes.Props.C131_clone"], "note": "Histories: all without reference properties; single calls and clones: with them, too."},
  {"property": "C132", "status": "partial", "theorems": ["Verif.Classes.Props.C132_own_partial", "Verif.Classes.Props.C132_violation_parent"], "note": "The code violates the claim (see the witness). Proved for the properties of the class itself."},
  {"property": "C133", "status": "partial", "theorems": ["Verif.Classes.Props.C133_reload_partial", "Verif.Classes.Props.C133_get_partial", "Verif.Classes.Props.C133_violation_order", "Verif.Classes.Props.C133_violation_reference", "Verif.Classes.Props.C133_violation_again"], "note": "The code violates the claim (see the witnesses). Proved for managers without reference properties: the same classes with their properties in listed order, and the same answers to every lookup."},
  {"property": "C134", "status": "proved", "theorems": ["Verif.Mirror.Props.C134_nothing_else", "Verif.Mirror.Props.C134_signal", "Verif.Mirror.Props.C134_lists", "Verif.Mirror.Props.C134_all_gone", "Verif.Mirror.Props.C134_source"], "note": "All states and calls; removal from lists for lists without repetition."},
  {"property": "C135", "status": "proved", "theorems": ["Verif.Access.Props.C135_view_only", "Verif.Access.Props.C135_refused", "Verif.Access.Props.C135_unchanged"], "note": "All requests but the three of C136. That the state is unchanged needs that reading calls do not change it."},
  {"property": "C136", "status": "partial", "theorems": ["Verif.Access.Props.C136_mode_partial", "Verif.Access.Props.C136_violation_view_only"], "note": "The code violates the claim (see the witness). Proved: the operation mode is switched only for a user who may write the device."},
  {"property": "C137", "status": "proved", "theorems": ["Verif.Access.Props.C137_locked", "Verif.Access.Props.C137_root", "Verif.Access.Props.C137_call"], "note": "All changing requests but those of C138; for functions, reading calls are assumed not to change the state."},
  {"property": "C138", "status": "partial", "theorems": ["Verif.Access.Props.C138_violation_lock", "Verif.Access.Props.C138_mode_partial"], "note": "The code violates the claim (see the witness). Proved: the operation mode is switched only for a user who may write the device."},
  {"property": "C139", "status": "proved", "theorems": ["Verif.Access.Props.C139_denied", "Verif.Access.Props.C139_root", "Verif.Access.Props.C139_signal", "Verif.Access.Props.C139_property"], "note": "All requests with a check on their component; nested properties by name."},
  {"property": "C140", "status": "partial", "theorems": ["Verif.Access.Props.C140_violation_permissions", "Verif.Access.Props.C140_no_path_partial"], "note": "The code violates the claim (see the witness). Proved: without a path, only the named component is touched, and the user may write it."},
  {"property": "C141", "status": "proved", "theorems": ["Verif.Access.Props.C141_direct", "Verif.Access.Props.C141_lock", "Verif.Access.Props.C141_attribute", "Verif.Access.Props.C141_blocks", "Verif.Access.Props.C141_remove", "Verif.Access.Props.C141_call", "Verif.Access.Props.C141_connect", "Verif.Access.Props.C141_accepts", "Verif.Access.Props.C141_trees", "Verif.Access.Props.C141_remove_external", "Verif.Access.Props.C141_end_update", "Verif.Access.Props.C141_mode_recursive", "Verif.Access.Props.C141_source", "Verif.Access.Props.C141_connect_external", "Verif.Access.Props.C141_accepts_all"], "note": "All requests; properties by names without dots and without DaqDeviceInfo (see C144); SetProtectedPropertyValue in C144."},
  {"property": "C142", "status": "proved", "theorems": ["Verif.Access.Props.C142_unreadable"], "note": "All properties and states; reading calls are assumed not to change the state."},
  {"property": "C143", "status": "partial", "theorems": ["Verif.Access.Props.C143_violation_getter_runs", "Verif.Access.Props.C143_only_read_partial"], "note": "The code violates the claim (see the witness). Proved: requests that read only read."},
  {"property": "C144", "status": "partial", "theorems": ["Verif.Access.Props.C144_violation_names", "Verif.Access.Props.C144_text_partial", "Verif.Access.Props.C144_info_partial"], "note": "The code violates the claim (see the witness). Proved for text as protected value, and for DaqDeviceInfo followed by a dot and a name."},
  {"property": "C145", "status": "proved", "theorems": ["Verif.Access.Props.C145_unique", "Verif.Access.Props.C145_nowhere", "Verif.Access.Props.C145_unknown"], "note": "All trees and addresses."},
  {"property": "C146", "status": "proved", "theorems": ["Verif.Remote.Props.C146_place", "Verif.Remote.Props.C146_nowhere", "Verif.Remote.Props.C146_order", "Verif.Remote.Props.C146_attribute", "Verif.Remote.Props.C146_locked", "Verif.Remote.Props.C146_lock", "Verif.Remote.Props.C146_tags", "Verif.Remote.Props.C146_statuses", "Verif.Remote.Props.C146_properties", "Verif.Remote.Props.C146_items", "Verif.Remote.Props.C146_write_place", "Verif.Remote.Props.C146_write_ignored", "Verif.Remote.Props.C146_write_done", "Verif.Remote.Props.C146_write_replaced", "Verif.Remote.Props.C146_write_failed", "Verif.Remote.Props.C146_write_cases", "Verif.Remote.Props.C146_batch"], "note": "Names and ids are unique. Updates from a configuration are arbitrary changes (C113)."},
  {"property": "C147", "status": "partial", "theorems": ["Verif.Remote.Props.C147_events_tell_partial", "Verif.Remote.Props.C147_violation_replaced"], "note": "Proved if the property takes the value its handlers leave as it is; the code violates it otherwise (see the witness)."},
  {"property": "C148", "status": "proved", "theorems": ["Verif.Sessions.Props.C148_limit", "Verif.Sessions.Props.C148_kind", "Verif.Sessions.Props.C148_served"], "note": "All histories, also those with late announcements."},
  {"property": "C149", "status": "proved", "theorems": ["Verif.Sessions.Props.C149_verdict", "Verif.Sessions.Props.C149_exclusive"], "note": "Announcements (transport layer properties) come before the first configuration packet or streaming request of a session, as in the openDAQ client. At the limit a client is refused even if it would drop others."},
  {"property": "C150", "status": "partial", "theorems": ["Verif.Sessions.Props.C150_view_partial", "Verif.Sessions.Props.C150_violation_lost", "Verif.Sessions.Props.C150_violation_locked", "Verif.Sessions.Props.C150_violation_stuck"], "note": "Proved for announcements before use (C149) and for view-only clients; the code violates it otherwise (see the witnesses)."},
  {"property": "C151", "status": "partial", "theorems": ["Verif.Sessions.Props.C151_closed_partial", "Verif.Sessions.Props.C151_kept_partial", "Verif.Sessions.Props.C151_violation_user"], "note": "Proved except that users are not compared, which is a violation (see the witness)."},
  {"property": "C152", "status": "proved", "theorems": ["Verif.Sessions.Props.C152_shown"], "note": "The root device is not removed."},
  {"property": "C153", "status": "partial", "theorems": ["Verif.Sessions.Props.C153_numbers_partial", "Verif.Sessions.Props.C153_violation_both", "Verif.Sessions.Props.C153_violation_renamed"], "note": "Proved for C152's histories, and for all histories that entries have distinct numbers and that adding and removing never fails; the code violates it otherwise (see the witnesses)."},
  {"property": "C154", "status": "partial", "theorems": ["Verif.Sessions.Props.C154_announced_partial", "Verif.Sessions.Props.C154_violation_renamed"], "note": "Proved if announcements come before use; the code violates it otherwise (see the witness)."},
  {"property": "C155", "status": "partial", "theorems": ["Verif.Sessions.Props.C155_session_partial", "Verif.Sessions.Props.C155_violation_taken"], "note": "Proved if no client takes an id of the form the server assigns; the code violates it otherwise (see the witness)."},
  {"property": "C156", "status": "partial", "theorems": ["Verif.Sessions.Props.C156_settings_partial", "Verif.Sessions.Props.C156_violation_swapped"], "note": "The settings are interchanged; they are right only if they are equal."},
  {"property": "C157", "status": "partial", "theorems": ["Verif.Sessions.Props.C157_threw_partial", "Verif.Sessions.Props.C157_violation_init", "Verif.Sessions.Props.C157_violation_self"], "note": "Exactly three causes; each has a witness."},
  {"property": "C158", "status": "proved", "theorems": ["Verif.Notify.Props.C158_in_order"], "note": "Interleavings at the granularity of accesses to shared state; the list of events is guarded by its lock."},
  {"property": "C159", "status": "proved", "theorems": ["Verif.Notify.Props.C159_nothing_left", "Verif.Notify.Props.C159_someone_sends"], "note": "Both parts hold for every history."},
  {"property": "C160", "status": "proved", "theorems": ["Verif.Notify.Props.C160_before_reply"], "note": "Both for versions that collect events and those that do not."},
  {"property": "C161", "status": "proved", "theorems": ["Verif.Notify.Props.C161_one_notification"], "note": "Needs that no event waits when the call begins and nothing else goes on."},
  {"property": "C162", "status": "partial", "theorems": ["Verif.Notify.Props.C162_violation_neighbours", "Verif.Notify.Props.C162_only_unsendable_partial"], "note": "The code violates it (see the witness); proved: a list is only lost if one of its events cannot be sent."},
  {"property": "C163", "status": "partial", "theorems": ["Verif.Notify.Props.C163_violation_unreadable"], "note": "The code violates it (see the witness)."},
  {"property": "C164", "status": "proved", "theorems": ["Verif.Notify.Props.C164_version", "Verif.Notify.Props.C164_agreed", "Verif.Notify.Props.C164_supported"], "note": "Covers any list of versions offered by a server; the second theorem is about this server."},
  {"property": "C165", "status": "partial", "theorems": ["Verif.Notify.Props.C165_violation_refused", "Verif.Notify.Props.C165_violation_format", "Verif.Notify.Props.C165_supported_partial"], "note": "Proved for supported versions; the code violates it otherwise (see the witnesses)."},
  {"property": "C166", "status": "partial", "theorems": ["Verif.Notify.Props.C166_violation_refused", "Verif.Notify.Props.C166_external_partial"], "note": "Proved as long as no external signal was refused; the code violates it otherwise (see the witness)."},
  {"property": "C167", "status": "proved", "theorems": ["Verif.Config.Props.C167_values", "Verif.Config.Props.C167_again"], "note": "The condition on checks is needed: see C169."},
  {"property": "C168", "status": "proved", "theorems": ["Verif.Config.Props.C168_follows"], "note": "Any document, any object."},
  {"property": "C169", "status": "partial", "theorems": ["Verif.Config.Props.C169_violation_order", "Verif.Config.Props.C169_order_partial"], "note": "The code violates it (see the witness); proved where checks only look at properties that come before."},
  {"property": "C170", "status": "proved", "theorems": ["Verif.Config.Props.C170_settings"], "note": "Both for the first pass and the whole load; independent of the connections."},
  {"property": "C171", "status": "proved", "theorems": ["Verif.Config.Props.C171_connections"], "note": "The conditions on what was connected before and on loops are needed: see C172 and C175."},
  {"property": "C172", "status": "partial", "theorems": ["Verif.Config.Props.C172_violation_kept", "Verif.Config.Props.C172_violation_not_disconnected", "Verif.Config.Props.C172_disconnected_partial"], "note": "The code violates it (see the witnesses); proved if nothing is connected before."},
  {"property": "C173", "status": "partial", "theorems": ["Verif.Config.Props.C173_violation_lost", "Verif.Config.Props.C173_same_as_before_partial"], "note": "The code violates it (see the witness); proved: they are the same after as before."},
  {"property": "C174", "status": "partial", "theorems": ["Verif.Config.Props.C174_violation_lost", "Verif.Config.Props.C174_violation_half", "Verif.Config.Props.C174_built_in_partial"], "note": "The code violates it (see the witnesses); proved: what is built in stays, with its type, ports, signals, tags and locked attributes."},
  {"property": "C175", "status": "partial", "theorems": ["Verif.Config.Props.C175_violation_cyclic", "Verif.Config.Props.C175_ends_partial"], "note": "The code violates it (see the witness); proved for documents saved by a device whose connections contain no loop."},
  {"property": "C176", "status": "partial", "theorems": ["Verif.Config.Props.C176_violation_unlocks", "Verif.Config.Props.C176_violation_anyone", "Verif.Config.Props.C176_as_saved_partial"], "note": "The code violates it (see the witnesses); proved: after a load the device is locked exactly if the saved one was."},
  {"property": "C177", "status": "partial", "theorems": ["Verif.Config.Props.C177_violation_other_id", "Verif.Config.Props.C177_settings_partial"], "note": "The code violates it (see the witness) as to the connections; proved for the settings."},
  {"property": "C178", "status": "partial", "theorems": ["Verif.Config.Props.C178_violation_other_port", "Verif.Config.Props.C178_named_partial"], "note": "The code violates it (see the witness); proved for the second pass if every port named is there."},
  {"property": "C179", "status": "proved", "theorems": ["Verif.Config.Props.C179_untouched"], "note": "Whatever the outcome of the load."},
  {"property": "C180", "status": "proved", "theorems": ["Verif.Descr.Props.C180_size"], "note": "The hypothesis that dictionaries have distinct keys is what a dictionary is."},
  {"property": "C181", "status": "partial", "theorems": ["Verif.Descr.Props.C181_size_partial", "Verif.Descr.Props.C181_violation_overflow", "Verif.Descr.Props.C181_violation_empty_dimension"], "note": "The code violates it for empty dimensions and overflow (see the witnesses); proved otherwise."},
  {"property": "C182", "status": "proved", "theorems": ["Verif.Descr.Props.C182_buildable"], "note": "Both directions, by induction over the tree."},
  {"property": "C183", "status": "proved", "theorems": ["Verif.Descr.Props.C183_scaling"], "note": "For every built descriptor."},
  {"property": "C184", "status": "partial", "theorems": ["Verif.Descr.Props.C184_record_partial", "Verif.Descr.Props.C184_violation_reference"], "note": "The code violates it for reference domains and metadata (see the witness); proved for the rest."},
  {"property": "C185", "status": "partial", "theorems": ["Verif.Descr.Props.C185_offset_partial", "Verif.Descr.Props.C185_violation_float"], "note": "The code violates it for floating point types (see the witness); proved for the rest, an undefined type aside."},
  {"property": "C186", "status": "partial", "theorems": ["Verif.Descr.Props.C186_lists_partial", "Verif.Descr.Props.C186_fixed_partial", "Verif.Descr.Props.C186_rules_partial", "Verif.Descr.Props.C186_violation_scaling", "Verif.Descr.Props.C186_violation_labels", "Verif.Descr.Props.C186_violation_fields"], "note": "The code violates it in three ways (see the witnesses). Proved: the lists of dimensions and metadata and non-empty fields stay, rules keep their parameters, and a descriptor all of whose parts are frozen shows the same for ever at any depth."},
  {"property": "C187", "status": "proved", "theorems": ["Verif.Descr.Props.C187_round_trip", "Verif.Descr.Props.C187_read_valid"], "note": "Depth of the document at least that of the record; leaves of documents are read back as written (C86, C87)."},
  {"property": "C188", "status": "partial", "theorems": ["Verif.Descr.Props.C188_written_partial", "Verif.Descr.Props.C188_violation_missing"], "note": "The code violates it (see the witness); proved if names, origins and parameters are there."},
  {"property": "C189", "status": "proved", "theorems": ["Verif.Descr.Props.C189_copy", "Verif.Descr.Props.C189_copy_later"], "note": "Second theorem: at any later time if the parts are frozen."},
  {"property": "C190", "status": "proved", "theorems": ["Verif.Sched.Props.C190_once", "Verif.Sched.Props.C190_runs"], "note": "Any number of calls may be in progress; the third part needs that none is when the iteration begins."},
  {"property": "C191", "status": "proved", "theorems": ["Verif.Sched.Props.C191_iteration", "Verif.Sched.Props.C191_next"], "note": "The first part for any interleaving, the second if no other call comes in between."},
  {"property": "C192", "status": "partial", "theorems": ["Verif.Sched.Props.C192_order_partial", "Verif.Sched.Props.C192_violation_order"], "note": "The code violates it when calls overlap (see the witness); proved when they follow one another."},
  {"property": "C193", "status": "partial", "theorems": ["Verif.Sched.Props.C193_refused_partial", "Verif.Sched.Props.C193_violation_overlap"], "note": "The code violates it after a stop (see the witness); proved as long as no stop has run."},
  {"property": "C194", "status": "partial", "theorems": ["Verif.Sched.Props.C194_only_partial", "Verif.Sched.Props.C194_ends_partial", "Verif.Sched.Props.C194_violation_early", "Verif.Sched.Props.C194_violation_lost"], "note": "The code violates it in two ways (see the witnesses); proved when calls follow one another."},
  {"property": "C195", "status": "proved", "theorems": ["Verif.Sched.Props.C195_over"], "note": "By induction over the calls."},
  {"property": "C196", "status": "partial", "theorems": ["Verif.Sched.Props.C196_completed_partial", "Verif.Sched.Props.C196_violation_waited"], "note": "The code violates it (see the witness); proved after the result was taken."},
  {"property": "C197", "status": "partial", "theorems": ["Verif.Sched.Props.C197_result_partial", "Verif.Sched.Props.C197_violation_again"], "note": "The code violates it for the second call (see the witness); proved for the first."},
  {"property": "C198", "status": "proved", "theorems": ["Verif.Sched.Props.C198_order", "Verif.Sched.Props.C198_complete"], "note": "The behaviour of the Taskflow library is assumed as documented. Completeness if orders are only asked for within one graph."},
  {"property": "C199", "status": "partial", "theorems": ["Verif.Sched.Props.C199_then_partial", "Verif.Sched.Props.C199_gone", "Verif.Sched.Props.C199_violation_loose", "Verif.Sched.Props.C199_violation_released", "Verif.Sched.Props.C199_violation_graphs"], "note": "The code violates it in three ways (see the witnesses); proved otherwise."},
  {"property": "C200", "status": "proved", "theorems": ["Verif.Sched.Props.C200_refused", "Verif.Sched.Props.C200_accepted"], "note": "For all sequences of calls."},
  {"property": "C201", "status": "partial", "theorems": ["Verif.Sched.Props.C201_defined_partial", "Verif.Sched.Props.C201_violation_stopped", "Verif.Sched.Props.C201_violation_loop"], "note": "The code violates it (see the witnesses); proved for the other calls and states."},
  {"property": "C202", "status": "proved", "theorems": ["Verif.Modes.Props.C202_reach", "Verif.Modes.Props.C202_events", "Verif.Modes.Props.C202_members", "Verif.Modes.Props.C202_ignored", "Verif.Modes.Props.C202_succeeds", "Verif.Modes.Props.C202_shaped"], "note": "For trees with devices in the folders of sub-devices only; C202_shaped shows which histories give such trees."},
  {"property": "C203", "status": "proved", "theorems": ["Verif.Modes.Props.C203_reach", "Verif.Modes.Props.C203_told", "Verif.Modes.Props.C203_succeeds"], "note": "Same trees as C202."},
  {"property": "C204", "status": "proved", "theorems": ["Verif.Modes.Props.C204_nearest", "Verif.Modes.Props.C204_none"], "note": "For all trees."},
  {"property": "C205", "status": "partial", "theorems": ["Verif.Modes.Props.C205_violation_early", "Verif.Modes.Props.C205_violation_root", "Verif.Modes.Props.C205_partial", "Verif.Modes.Props.C205_set_partial", "Verif.Modes.Props.C205_history_partial"], "note": "The code violates it (see the witnesses); proved for a root device whose mode was set once, for all later histories without failing handlers."},
  {"property": "C206", "status": "proved", "theorems": ["Verif.Modes.Props.C206_mode", "Verif.Modes.Props.C206_added", "Verif.Modes.Props.C206_root"], "note": "For all histories."},
  {"property": "C207", "status": "partial", "theorems": ["Verif.Modes.Props.C207_violation", "Verif.Modes.Props.C207_partial"], "note": "The code violates it (see the witness); proved if the handler of the device itself fails."},
  {"property": "C208", "status": "partial", "theorems": ["Verif.Modes.Props.C208_violation", "Verif.Modes.Props.C208_partial"], "note": "The code violates it for devices in other folders (see the witness); proved for those in the folder of the sub-devices."},
  {"property": "C209", "status": "proved", "theorems": ["Verif.Mgr.C209_once", "Verif.Mgr.C209_again", "Verif.Mgr.C209_stay"], "note": "For all histories; the text of the path counts, as in the code."},
  {"property": "C210", "status": "partial", "theorems": ["Verif.Mgr.C210_violation_added", "Verif.Mgr.C210_loaded_partial", "Verif.Mgr.C210_rejected_partial"], "note": "The code violates it for `addModule` (see the witness); proved for loading."},
  {"property": "C211", "status": "partial", "theorems": ["Verif.Mgr.C211_violation_throws", "Verif.Mgr.C211_accepted_partial", "Verif.Mgr.C211_none_partial"], "note": "The code violates it for authenticators that throw (see the witness); proved for those that do not."},
  {"property": "C212", "status": "proved", "theorems": ["Verif.Mgr.C212_unused", "Verif.Mgr.C212_shape", "Verif.Mgr.C212_distinct"], "note": "Whenever an id is generated (see C213)."},
  {"property": "C213", "status": "partial", "theorems": ["Verif.Mgr.C213_violation_overflow", "Verif.Mgr.C213_generated_partial"], "note": "The code violates it (see the witness); proved when no item has the largest number."},
  {"property": "C214", "status": "proved", "theorems": ["Verif.Mgr.C214_first", "Verif.Mgr.C214_none"], "note": "For all lists of modules."},
  {"property": "C215", "status": "partial", "theorems": ["Verif.Mgr.C215_violation_device", "Verif.Mgr.C215_violation_server", "Verif.Mgr.C215_device_partial", "Verif.Mgr.C215_nodevice_partial", "Verif.Mgr.C215_server_partial", "Verif.Mgr.C215_noserver_partial"], "note": "The code violates it when a module fails to answer (see the witnesses); proved otherwise."},
  {"property": "C216", "status": "partial", "theorems": ["Verif.Mgr.C216_violation_twice", "Verif.Mgr.C216_violation_later", "Verif.Mgr.C216_violation_null", "Verif.Mgr.C216_one_partial"], "note": "The code violates it (see the witnesses); proved when one module offers the prefix."},
  {"property": "C217", "status": "proved", "theorems": ["Verif.Mgr.C217_parts", "Verif.Mgr.C217_form"], "note": "Both directions; values of options are texts."},
  {"property": "C218", "status": "proved", "theorems": ["Verif.Mgr.C218_plain", "Verif.Mgr.C218_nothing"], "note": "For configurations that are not made from the default one; values are opaque."},
  {"property": "C219", "status": "partial", "theorems": ["Verif.Mgr.C219_violation_explicit", "Verif.Mgr.C219_full_partial"], "note": "The code violates it (see the witness); the exact precedence is proved."},
  {"property": "C220", "status": "proved", "theorems": ["Verif.Mgr.C220_listed", "Verif.Mgr.C220_found", "Verif.Mgr.C220_protocols", "Verif.Mgr.C220_visible"], "note": "When devices without manufacturer, serial number or capability have no smart connection strings."},
  {"property": "C221", "status": "partial", "theorems": ["Verif.Mgr.C221_violation_same", "Verif.Mgr.C221_distinct_partial"], "note": "The code violates it (see the witness); proved for manufacturers without an underscore."},
  {"property": "C222", "status": "proved", "theorems": ["Verif.Mgr.C222_smart", "Verif.Mgr.C222_none"], "note": "For all devices."},
  {"property": "C223", "status": "partial", "theorems": ["Verif.Mgr.C223_violation_last", "Verif.Mgr.C223_reachable_partial", "Verif.Mgr.C223_unknown_partial", "Verif.Mgr.C223_unreachable_partial"], "note": "The code violates it (see the witness); proved when an address is reachable or at most one has unknown status."},
  {"property": "C224", "status": "proved", "theorems": ["Verif.Mgr.C224_code", "Verif.Mgr.C224_each", "Verif.Mgr.C224_empty"], "note": "For all outcomes."},
  {"property": "C225", "status": "proved", "theorems": ["Verif.Mgr.C225_both", "Verif.Mgr.C225_found", "Verif.Mgr.C225_named"], "note": "For capabilities with different protocols and properties with different names, as lists in the code have."},
  {"property": "C226", "status": "partial", "theorems": ["Verif.Mgr.C226_violation_both", "Verif.Mgr.C226_violation_old", "Verif.Mgr.C226_replaced_partial"], "note": "The code violates it (see the witnesses); proved when the new ids differ."},
  {"property": "C227", "status": "proved", "theorems": ["Verif.Status.C227_events", "Verif.Status.C227_list", "Verif.Status.C227_names", "Verif.Status.C227_update", "Verif.Status.C227_accepts", "Verif.Status.C227_about", "Verif.Status.C227_message"], "note": "For all histories."},
  {"property": "C228", "status": "partial", "theorems": ["Verif.Status.C228_violation_removed", "Verif.Status.C228_stays_partial", "Verif.Status.C228_reload_partial"], "note": "The code violates it (see the witness); proved for all histories without the removal."},
  {"property": "C229", "status": "partial", "theorems": ["Verif.Status.C229_violation_prefix", "Verif.Status.C229_named_partial"], "note": "The code violates it (see the witness); proved when no prefix begins with another."},
  {"property": "C230", "status": "proved", "theorems": ["Verif.Status.C230_sources", "Verif.Status.C230_effects"], "note": "For all histories with distinct connection strings for configuration and streamings and statuses of one type, without interruption of adding."},
  {"property": "C231", "status": "partial", "theorems": ["Verif.Status.C231_violation_refused", "Verif.Status.C231_refused_partial"], "note": "The code violates it (see the witness); proved for all other ways to fail."},
  {"property": "C232", "status": "partial", "theorems": ["Verif.Status.C232_violation_lost", "Verif.Status.C232_parts_partial"], "note": "The code violates it (see the witness); proved when nothing happens in between."},
  {"property": "C233", "status": "proved", "theorems": ["Verif.Sources.C233_sources", "Verif.Sources.C233_distinct", "Verif.Sources.C233_complete", "Verif.Sources.C233_again"], "note": "For modules that make the streaming they are asked for."},
  {"property": "C234", "status": "proved", "theorems": ["Verif.Sources.C234_group", "Verif.Sources.C234_preferred", "Verif.Sources.C234_always"], "note": "For modules that make streamings of the group of the capability."},
  {"property": "C235", "status": "partial", "theorems": ["Verif.Sources.C235_violation", "Verif.Sources.C235_group_partial"], "note": "The code violates it (see the witness); proved when a module can connect over the most preferred protocol."},
  {"property": "C236", "status": "proved", "theorems": ["Verif.Sources.C236_from", "Verif.Sources.C236_type", "Verif.Sources.C236_same", "Verif.Sources.C236_device"], "note": "For all devices."},
  {"property": "C237", "status": "partial", "theorems": ["Verif.Sources.C237_violation", "Verif.Sources.C237_first_partial"], "note": "The code violates it (see the witness); proved when the first address of the wanted type answers."},
  {"property": "C238", "status": "proved", "theorems": ["Verif.Sources.C238_added", "Verif.Sources.C238_elsewhere", "Verif.Sources.C238_devices"], "note": "For trees in which no two components have the same path; the added component is a device, or there are no devices below it."},
  {"property": "C239", "status": "proved", "theorems": ["Verif.Sources.C239_updated", "Verif.Sources.C239_elsewhere", "Verif.Sources.C239_devices"], "note": "For trees in which no two components have the same path and nothing is below signals and ports."},
  {"property": "C240", "status": "partial", "theorems": ["Verif.Sources.C240_violation_port", "Verif.Sources.C240_violation_old", "Verif.Sources.C240_violation_nested", "Verif.Sources.C240_violation_signal", "Verif.Sources.C240_all_partial"], "note": "The code violates it (see the witnesses); proved when there are no ports, all signals are new, and with MinHops nothing below the owner is updated."},
  {"property": "C241", "status": "proved", "theorems": ["Verif.Refs.C241_read", "Verif.Refs.C241_readable", "Verif.Refs.C241_unique", "Verif.Refs.C241_write_is_target", "Verif.Refs.C241_write", "Verif.Refs.C241_clear"], "note": "For all reachable states; expressions `%A` and `switch($C, …)`."},
  {"property": "C242", "status": "partial", "theorems": ["Verif.Refs.C242_ends_partial", "Verif.Refs.C242_stable", "Verif.Refs.C242_violation_self", "Verif.Refs.C242_violation_cycle"], "note": "The code violates it (see the witnesses); proved if no property is added that an existing reference, or itself, mentions."},
  {"property": "C243", "status": "partial", "theorems": ["Verif.Refs.C243_one_reference_partial", "Verif.Refs.C243_refused", "Verif.Refs.C243_violation"], "note": "The code violates it (see the witness); proved if no property is added that an existing reference, or itself, mentions."},
  {"property": "C244", "status": "partial", "theorems": ["Verif.Refs.C244_accepted_iff", "Verif.Refs.C244_refused_objects", "Verif.Refs.C244_owned_partial", "Verif.Refs.C244_violation_refused", "Verif.Refs.C244_violation_removed"], "note": "The code violates it (see the witnesses); proved: when exactly an addition is accepted and which definitions count as owned."},
  {"property": "C245", "status": "partial", "theorems": ["Verif.Refs.C245_handlers_partial", "Verif.Refs.C245_listen_iff", "Verif.Refs.C245_violation"], "note": "The code violates it (see the witness); proved if no property is added under the name of a removed one."},
  {"property": "C246", "status": "proved", "theorems": ["Verif.Refs.C246_fresh", "Verif.Refs.C246_removed"], "note": "For all reachable states."},
  {"property": "C247", "status": "proved", "theorems": ["Verif.Refs.C247_others"], "note": "For all states."},
  {"property": "C248", "status": "proved", "theorems": ["Verif.Defs.C248_exact", "Verif.Defs.C248_fields", "Verif.Defs.C248_type", "Verif.Defs.C248_made"], "note": "For all definitions."},
  {"property": "C249", "status": "partial", "theorems": ["Verif.Defs.C249_violation", "Verif.Defs.C249_violation_function", "Verif.Defs.C249_undescribed_partial", "Verif.Defs.C249_described_partial"], "note": "The code violates it (see the witnesses); proved for properties without a description, and that the description is missing or empty."},
  {"property": "C250", "status": "partial", "theorems": ["Verif.Defs.C250_violation_type", "Verif.Defs.C250_violation_list", "Verif.Defs.C250_violation_limit", "Verif.Defs.C250_violation_selection", "Verif.Defs.C250_rewrite_partial", "Verif.Defs.C250_items_partial"], "note": "The code violates it (see the witnesses); proved for defaults of the right type, within the limits and among the selection values, and for the items of containers."},
  {"property": "C251", "status": "proved", "theorems": ["Verif.Defs.C251_agree", "Verif.Defs.C251_fields", "Verif.Defs.C251_accepts"], "note": "For all arguments, selection values that are no expressions."},
  {"property": "C252", "status": "proved", "theorems": ["Verif.Defs.C252_loads", "Verif.Defs.C252_same", "Verif.Defs.C252_type", "Verif.Defs.C252_again"], "note": "For all properties made by any sequence of building, loading and cloning."},
  {"property": "C253", "status": "partial", "theorems": ["Verif.Defs.C253_violation", "Verif.Defs.C253_violation_suggested", "Verif.Defs.C253_rest_partial"], "note": "The code violates it (see the witnesses); proved for everything else in the property."},
  {"property": "C254", "status": "proved", "theorems": ["Verif.Defs.C254_clone", "Verif.Defs.C254_equal", "Verif.Defs.C254_type"], "note": "For all properties; the property type for those that are built, loaded or cloned, or made with selection values that are no expression."},
  {"property": "C255", "status": "partial", "theorems": ["Verif.Defs.C255_violation", "Verif.Defs.C255_violation_direct", "Verif.Defs.C255_plain_partial", "Verif.Defs.C255_first_partial"], "note": "The code violates it (see the witnesses); proved for values that are no expression and for the first time it is asked for."},
  {"property": "C256", "status": "partial", "theorems": ["Verif.Defs.C256_violation_dict", "Verif.Defs.C256_violation_list", "Verif.Defs.C256_list_partial", "Verif.Defs.C256_dict_partial"], "note": "The code violates it (see the witnesses); proved that stored containers have the types of the default if those are known."},
  {"property": "C257", "status": "partial", "theorems": ["Verif.Defs.C257_violation_type", "Verif.Defs.C257_violation_order", "Verif.Defs.C257_violation_selection", "Verif.Defs.C257_int_partial", "Verif.Defs.C257_within_partial"], "note": "The code violates it (see the witnesses); proved for Int limits in order of an Int property, and that values within any limits are kept."},
  {"property": "C258", "status": "proved", "theorems": ["Verif.Defs.C258_selected"], "note": "For all properties without limits; selection values that are no expression."},
  {"property": "C259", "status": "proved", "theorems": ["Verif.Nest.C259_held", "Verif.Nest.C259_recorded"], "note": "For all trees and sequences of calls."},
  {"property": "C260", "status": "partial", "theorems": ["Verif.Nest.C260_violation_frozen", "Verif.Nest.C260_violation_added", "Verif.Nest.C260_begin_partial", "Verif.Nest.C260_refused_partial"], "note": "The code violates it (see the witnesses); proved for trees in which nothing is frozen, and that a frozen object refuses."},
  {"property": "C261", "status": "partial", "theorems": ["Verif.Nest.C261_violation_order", "Verif.Nest.C261_violation_object", "Verif.Nest.C261_batch_partial"], "note": "The code violates it (see the witnesses); proved for any number of sets, also with dotted names, and of clears of values through their own object, made anywhere in the tree."},
  {"property": "C262", "status": "partial", "theorems": ["Verif.Nest.C262_violation_refused", "Verif.Nest.C262_violation_late", "Verif.Nest.C262_violation_lost", "Verif.Nest.C262_end_partial", "Verif.Nest.C262_violation_added", "Verif.Nest.C262_violation_added_lost"], "note": "The code violates it (see the witnesses); proved for ends that succeed in trees in which nothing is frozen."},
  {"property": "C263", "status": "partial", "theorems": ["Verif.Nest.C263_violation_readOnly", "Verif.Nest.C263_reset_partial", "Verif.Nest.C263_default_partial"], "note": "The code violates it (see the witness); proved for objects in which nothing is read-only, frozen or in an update."},
  {"property": "C264", "status": "proved", "theorems": ["Verif.Nest.C264_local", "Verif.Nest.C264_run"], "note": "For all trees, calls and sequences of calls."},
  {"property": "C265", "status": "proved", "theorems": ["Verif.Nest.C265_fails", "Verif.Nest.C265_set", "Verif.Nest.C265_dotted", "Verif.Nest.C265_dotted_clear", "Verif.Nest.C265_clear"], "note": "For all trees and values; dotted names for trees in which nothing is frozen, and for clears in no update."},
  {"property": "C266", "status": "proved", "theorems": ["Verif.Opts.C266_json", "Verif.Opts.C266_populate", "Verif.Opts.C266_options"], "note": "For all options and providers."},
  {"property": "C267", "status": "proved", "theorems": ["Verif.Opts.C267_plain", "Verif.Opts.C267_unnamed", "Verif.Opts.C267_other"], "note": "For all options and documents; integers from 2^63 are the subject of C268."},
  {"property": "C268", "status": "partial", "theorems": ["Verif.Opts.C268_violation", "Verif.Opts.C268_new_partial", "Verif.Opts.C268_list_partial"], "note": "The code violates it (see the witness); proved for documents with integers below 2^63 and distinct names in each object."},
  {"property": "C269", "status": "proved", "theorems": ["Verif.Opts.C269_again"], "note": "For all options and documents with distinct names in each object and integers below 2^63."},
  {"property": "C270", "status": "partial", "theorems": ["Verif.Opts.C270_violation_int", "Verif.Opts.C270_violation_float", "Verif.Opts.C270_violation_quotes", "Verif.Opts.C270_int_partial", "Verif.Opts.C270_bool_partial", "Verif.Opts.C270_fraction_partial", "Verif.Opts.C270_string_partial", "Verif.Opts.C270_others_partial"], "note": "The code violates it (see the witnesses); proved for decimal integers, words for truth values, decimal fractions, strings, and that lists and dictionaries are left alone."},
  {"property": "C271", "status": "partial", "theorems": ["Verif.Opts.C271_violation", "Verif.Opts.C271_quotes_partial", "Verif.Opts.C271_int_partial", "Verif.Opts.C271_bool_partial", "Verif.Opts.C271_string_partial"], "note": "The code violates it (see the witness); proved for texts in quotes, decimal integers, words for truth values, and texts without a point that start with nothing a number can start with."},
  {"property": "C272", "status": "proved", "theorems": ["Verif.Opts.C272_other", "Verif.Opts.C272_unnamed"], "note": "For all options, variables and arguments."},
  {"property": "C273", "status": "partial", "theorems": ["Verif.Opts.C273_violation", "Verif.Opts.C273_order_partial"], "note": "The code violates it (see the witness); proved for any number of arguments of which none names an option inside that of another."},
  {"property": "C274", "status": "partial", "theorems": ["Verif.Opts.C274_violation", "Verif.Opts.C274_violation_underscore", "Verif.Opts.C274_ignored_partial"], "note": "The code violates it (see the witnesses); proved that variables and arguments of another form are not looked at."},
  {"property": "C275", "status": "partial", "theorems": ["Verif.Opts.C275_violation", "Verif.Opts.C275_set_partial", "Verif.Opts.C275_order_partial"], "note": "The code violates it (see the witness); proved for builders without providers, and that providers have their effect in the order in which they were added."},
  {"property": "C276", "status": "partial", "theorems": ["Verif.Defs.C276_violation_types", "Verif.Defs.C276_violation_limits", "Verif.Defs.C276_offered_partial", "Verif.Defs.C276_refused_partial"], "note": "The code violates it (see the witnesses); proved for all properties without limits whose selection values are no expression, have one type and, in a dictionary, distinct integer keys."},
  {"property": "C277", "status": "partial", "theorems": ["Verif.Defs.C277_violation_default", "Verif.Defs.C277_violation_changed", "Verif.Defs.C277_written_partial"], "note": "The code violates it (see the witnesses); proved after any write to a property without limits whose selection values are no expression and have one type."},
  {"property": "C278", "status": "proved", "theorems": ["Verif.Info.C278_attach", "Verif.Info.C278_same", "Verif.Info.C278_write"], "note": ""},
  {"property": "C279", "status": "partial", "theorems": ["Verif.Info.C279_violation", "Verif.Info.C279_device_partial", "Verif.Info.C279_own_partial"], "note": "The code violates it (see the witnesses); proved for clearing through the device, and for fields the device does not own."},
  {"property": "C280", "status": "partial", "theorems": ["Verif.Info.C280_violation_old", "Verif.Info.C280_violation_new", "Verif.Info.C280_restored_partial"], "note": "The code violates it (see the witnesses); proved when the information has no value of its own and belongs to the device before."},
  {"property": "C281", "status": "partial", "theorems": ["Verif.Info.C281_violation", "Verif.Info.C281_restored_partial"], "note": "The code violates it (see the witnesses); proved for the fields that were set when the configuration was saved."},
  {"property": "C282", "status": "proved", "theorems": ["Verif.Info.C282_free", "Verif.Info.C282_denied", "Verif.Info.C282_changeable", "Verif.Info.C282_frozen"], "note": ""},
  {"property": "C283", "status": "partial", "theorems": ["Verif.Info.C283_violation", "Verif.Info.C283_others_partial"], "note": "The code violates it (see the witnesses); proved for the other fields."},
  {"property": "C284", "status": "partial", "theorems": ["Verif.Info.C284_violation_locked", "Verif.Info.C284_violation_restored", "Verif.Info.C284_same_partial"], "note": "The code violates it (see the witnesses); proved for all calls while the name is not locked and nothing is restored or frozen."},
  {"property": "C285", "status": "proved", "theorems": ["Verif.Info.C285_names", "Verif.Info.C285_types", "Verif.Info.C285_given"], "note": ""},
  {"property": "C286", "status": "partial", "theorems": ["Verif.Info.C286_violation", "Verif.Info.C286_listed_partial", "Verif.Info.C286_changes_partial"], "note": "The code violates it (see the witnesses); proved for all calls that do not change the protocol of an added capability."},
  {"property": "C287", "status": "proved", "theorems": ["Verif.Info.C287_listed", "Verif.Info.C287_primary"], "note": ""},
  {"property": "C288", "status": "partial", "theorems": ["Verif.Info.C288_violation", "Verif.Info.C288_listed_partial"], "note": "The code violates it (see the witnesses); proved for addresses that differ in more than dots, slashes and brackets."},
  {"property": "C289", "status": "proved", "theorems": ["Verif.Info.C289_fresh", "Verif.Info.C289_again", "Verif.Info.C289_remove"], "note": ""},
  {"property": "C290", "status": "partial", "theorems": ["Verif.Info.C290_violation", "Verif.Info.C290_none_partial"], "note": "The code violates it (see the witnesses); proved for documents without clients."},
  {"property": "C291", "status": "proved", "theorems": ["Verif.Info.C291_listed", "Verif.Info.C291_numbers"], "note": ""},
  {"property": "C292", "status": "partial", "theorems": ["Verif.Info.C292_violation", "Verif.Info.C292_left_partial"], "note": "The code violates it (see the witnesses); proved for clients that connect when they are not connected."},
  {"property": "C293", "status": "partial", "theorems": ["Verif.Info.C293_violation", "Verif.Info.C293_first_partial"], "note": "The code violates it (see the witnesses); proved for callers that do not change the dictionary they got."},
  {"property": "C294", "status": "proved", "theorems": ["Verif.Loading.C294_connected", "Verif.Loading.C294_not_added", "Verif.Loading.C294_added", "Verif.Loading.C294_cannot_add", "Verif.Loading.C294_not_described"], "note": ""},
  {"property": "C295", "status": "partial", "theorems": ["Verif.Loading.C295_violation_same_id", "Verif.Loading.C295_violation_root", "Verif.Loading.C295_found_partial"], "note": "The code violates it (see the witnesses); proved if all local ids differ."},
  {"property": "C296", "status": "partial", "theorems": ["Verif.Loading.C296_violation_no_devices", "Verif.Loading.C296_removed_partial"], "note": "The code violates it (see the witnesses); proved if the configuration has a device and replaces none."},
  {"property": "C297", "status": "partial", "theorems": ["Verif.Loading.C297_violation_signal", "Verif.Loading.C297_violation_other_device", "Verif.Loading.C297_violation_added", "Verif.Loading.C297_moved_partial", "Verif.Loading.C297_none_replaced_partial"], "note": "The code violates it (see the witnesses); proved if no other part of the global id is the local id of a replaced device."},
  {"property": "C298", "status": "partial", "theorems": ["Verif.Loading.C298_violation_priority", "Verif.Loading.C298_match_partial", "Verif.Loading.C298_serial_partial"], "note": "The code violates it (see the witnesses); proved if no other connected device matches; what is used matches in any case."},
  {"property": "C299", "status": "partial", "theorems": ["Verif.Loading.C299_violation_swap", "Verif.Loading.C299_replaced_partial", "Verif.Loading.C299_connected_partial", "Verif.Loading.C299_inside_partial"], "note": "The code violates it (see the witnesses); proved for any number of devices without sub-devices, if the chosen ones are not connected before, differ and have no local ids of devices in the configuration."},
  {"property": "C300", "status": "partial", "theorems": ["Verif.Loading.C300_violation_order", "Verif.Loading.C300_order_partial"], "note": "The code violates it (see the witnesses); proved if no device is replaced."},
  {"property": "C301", "status": "proved", "theorems": ["Verif.Loading.C301_set", "Verif.Loading.C301_same", "Verif.Loading.C301_saved", "Verif.Loading.C301_of_configuration", "Verif.Loading.C301_only_devices", "Verif.Loading.C301_configuration_saved"], "note": ""},
  {"property": "C302", "status": "proved", "theorems": ["Verif.Errors.C302_isolated", "Verif.Errors.C302_fresh"], "note": ""},
  {"property": "C303", "status": "proved", "theorems": ["Verif.Errors.C303_read", "Verif.Errors.C303_extended", "Verif.Errors.C303_list"], "note": ""},
  {"property": "C304", "status": "proved", "theorems": ["Verif.Errors.C304_clear", "Verif.Errors.C304_nothing"], "note": ""},
  {"property": "C305", "status": "partial", "theorems": ["Verif.Errors.C305_plain_partial", "Verif.Errors.C305_violation_braces", "Verif.Errors.C305_violation"], "note": "The code violates it (see the witnesses); proved for messages without braces."},
  {"property": "C306", "status": "partial", "theorems": ["Verif.Errors.C306_other_partial", "Verif.Errors.C306_violation"], "note": "The code violates it (see the witnesses); proved in release builds if the newest pending error has another code."},
  {"property": "C307", "status": "proved", "theorems": ["Verif.Errors.C307_refused", "Verif.Errors.C307_changed", "Verif.Errors.C307_text"], "note": ""},
  {"property": "C308", "status": "partial", "theorems": ["Verif.Errors.C308_first_partial", "Verif.Errors.C308_violation"], "note": "The code violates it (see the witnesses); proved if the text was not read before."},
  {"property": "C309", "status": "partial", "theorems": ["Verif.Errors.C309_texts_partial", "Verif.Errors.C309_violation_code", "Verif.Errors.C309_violation_file"], "note": "The code violates it (see the witnesses); proved for message, source, line and file names that are not empty."},
  {"property": "C310", "status": "partial", "theorems": ["Verif.Errors.C310_recorded_partial", "Verif.Errors.C310_goes_on_partial", "Verif.Errors.C310_silent_partial", "Verif.Errors.C310_violation"], "note": "The code violates it (see the witnesses); proved if the last pending error has the code, and in release builds without message."},
  {"property": "C311", "status": "proved", "theorems": ["Verif.Errors.C311_newest", "Verif.Errors.C311_default", "Verif.Errors.C311_code"], "note": ""},
  {"property": "C312", "status": "proved", "theorems": ["Verif.Errors.C312_outside", "Verif.Errors.C312_inside"], "note": ""},
  {"property": "C313", "status": "partial", "theorems": ["Verif.Errors.C313_refused_partial", "Verif.Errors.C313_violation_left", "Verif.Errors.C313_guard_partial"], "note": "The code violates it (see the witnesses); the refusal and the pending errors are proved; nothing else changes if a scope exists."},
  {"property": "C314", "status": "proved", "theorems": ["Verif.Errors.C314_text", "Verif.Errors.C314_default", "Verif.Errors.C314_raised", "Verif.Errors.C314_passed", "Verif.Errors.C314_lines"], "note": ""},
  {"property": "C315", "status": "proved", "theorems": ["Verif.Sync.C315_valid", "Verif.Sync.C315_once"], "note": ""},
  {"property": "C316", "status": "proved", "theorems": ["Verif.Sync.C316_refines", "Verif.Sync.C316_remove"], "note": ""},
  {"property": "C317", "status": "proved", "theorems": ["Verif.Sync.C317_accepted", "Verif.Sync.C317_last", "Verif.Sync.C317_refused"], "note": ""},
  {"property": "C318", "status": "partial", "theorems": ["Verif.Sync.C318_valid_partial", "Verif.Sync.C318_violation_update", "Verif.Sync.C318_violation_other"], "note": "The code violates it (see the witnesses); proved for all sequences, with nested updates, in which interfaces are only removed outside of updates."},
  {"property": "C319", "status": "partial", "theorems": ["Verif.Sync.C319_returns_partial", "Verif.Sync.C319_violation_cycle"], "note": "The code violates it (see the witness); proved for classes whose chain of parents ends."},
  {"property": "C320", "status": "proved", "theorems": ["Verif.Sync.C320_begin", "Verif.Sync.C320_deferred", "Verif.Sync.C320_end", "Verif.Sync.C320_inner"], "note": ""},
  {"property": "C321", "status": "proved", "theorems": ["Verif.Ext.C321_many", "Verif.Ext.C321_one"], "note": ""},
  {"property": "C322", "status": "partial", "theorems": ["Verif.Ext.C322_many_partial", "Verif.Ext.C322_violation"], "note": "The code violates it (see the witness); proved when no single answer fails."},
  {"property": "C323", "status": "proved", "theorems": ["Verif.Ext.C323_numbers", "Verif.Ext.C323_given"], "note": ""},
  {"property": "C324", "status": "partial", "theorems": ["Verif.Ext.C324_streamed_partial", "Verif.Ext.C324_violation_changed", "Verif.Ext.C324_violation_chain"], "note": "The code violates it (see the witnesses); proved below version 18 (later versions do not read in the producer) for all sequences in which a port is disconnected before it gets another signal, the device does not refuse, its events are handled within the calls, and domain signals stay and have none themselves."},
  {"property": "C325", "status": "partial", "theorems": ["Verif.Ext.C325_mirrored_partial", "Verif.Ext.C325_violation"], "note": "The code violates it (see the witness); proved for the sequences of C324, for all versions from 2 on."},
  {"property": "C326", "status": "partial", "theorems": ["Verif.Ext.C326_agree_partial", "Verif.Ext.C326_violation_refused", "Verif.Ext.C326_violation_stuck"], "note": "The code violates it (see the witnesses); proved for the sequences of C324, for all versions from 2 on."},
  {"property": "C327", "status": "partial", "theorems": ["Verif.Ext.C327_stops_partial", "Verif.Ext.C327_violation"], "note": "The code violates it (see the witness); proved for the sequences of C324."},
  {"property": "C328", "status": "partial", "theorems": ["Verif.Ext.C328_object_partial", "Verif.Ext.C328_violation"], "note": "The code violates it (see the witness); proved when no object with the same id is held."},
  {"property": "C329", "status": "partial", "theorems": ["Verif.Ext.C329_keeps_partial", "Verif.Ext.C329_violation"], "note": "The code violates it (see the witness); proved when no event is on its way."},
  {"property": "C330", "status": "proved", "theorems": ["Verif.Ext.C330_connected"], "note": ""},
  {"property": "C331", "status": "proved", "theorems": ["Verif.Ext.C331_refused"], "note": ""},
  {"property": "C332", "status": "proved", "theorems": ["Verif.Boxes.C332_counted"], "note": ""},
  {"property": "C333", "status": "partial", "theorems": ["Verif.Boxes.C333_counted_partial", "Verif.Boxes.C333_violation_moved", "Verif.Boxes.C333_violation_popped"], "note": "The code violates it (see the witnesses); proved for all sequences in which no call fails because of an owner."},
  {"property": "C334", "status": "proved", "theorems": ["Verif.Boxes.C334_codes", "Verif.Boxes.C334_elements", "Verif.Boxes.C334_given", "Verif.Boxes.C334_refused", "Verif.Boxes.C334_other"], "note": ""},
  {"property": "C335", "status": "proved", "theorems": ["Verif.Boxes.C335_list", "Verif.Boxes.C335_dict", "Verif.Boxes.C335_stays"], "note": ""},
  {"property": "C336", "status": "proved", "theorems": ["Verif.Boxes.C336_distinct", "Verif.Boxes.C336_get", "Verif.Boxes.C336_set", "Verif.Boxes.C336_removed", "Verif.Boxes.C336_missing", "Verif.Boxes.C336_other", "Verif.Boxes.C336_apart"], "note": ""},
  {"property": "C337", "status": "partial", "theorems": ["Verif.Boxes.C337_owned_partial", "Verif.Boxes.C337_violation_replaced", "Verif.Boxes.C337_violation_twice", "Verif.Boxes.C337_violation_destroyed"], "note": "The code violates it (see the witnesses); proved for objects that take any owner, while the owner lives, no element is replaced, none is stored twice and the list is not destroyed."},
  {"property": "C338", "status": "partial", "theorems": ["Verif.Boxes.C338_refused_partial", "Verif.Boxes.C338_violation_added", "Verif.Boxes.C338_violation_cleared"], "note": "The code violates it (see the witnesses); proved for all failures that are not because of an owner."},
  {"property": "C339", "status": "proved", "theorems": ["Verif.Boxes.C339_added", "Verif.Boxes.C339_placed", "Verif.Boxes.C339_plain", "Verif.Boxes.C339_popped"], "note": ""},
  {"property": "C340", "status": "proved", "theorems": ["Verif.Clock.C340_completed"], "note": ""},
  {"property": "C341", "status": "partial", "theorems": ["Verif.Clock.C341_form_partial", "Verif.Clock.C341_violation"], "note": "The code violates it (see the witness); proved for all zones but those west of Greenwich. What the parser of dates makes of the text is not modelled."},
  {"property": "C342", "status": "proved", "theorems": ["Verif.Clock.C342_order"], "note": ""},
  {"property": "C343", "status": "partial", "theorems": ["Verif.Clock.C343_order_partial", "Verif.Clock.C343_violation"], "note": "The code violates it (see the witness); proved when tick times numerator is in the range of the type it is computed in."},
  {"property": "C344", "status": "proved", "theorems": ["Verif.Clock.C344_close"], "note": ""},
  {"property": "C345", "status": "partial", "theorems": ["Verif.Clock.C345_distinct_partial", "Verif.Clock.C345_violation"], "note": "The code violates it (see the witness); proved for ticks further apart than the error of C344 allows them to meet."},
  {"property": "C346", "status": "partial", "theorems": ["Verif.Clock.C346_memory_partial", "Verif.Clock.C346_origin_partial", "Verif.Clock.C346_violation"], "note": "The code violates it (see the witness); proved for all sequences in which every origin is a date."},
  {"property": "C347", "status": "proved", "theorems": ["Verif.Clock.C347_only_time"], "note": ""},
  {"property": "C348", "status": "proved", "theorems": ["Verif.Pull.C348_order", "Verif.Pull.C348_complete"], "note": ""},
  {"property": "C349", "status": "partial", "theorems": ["Verif.Pull.C349_lost_partial", "Verif.Pull.C349_lost_violation"], "note": "The code violates it (see the witness); proved when signals are disconnected or replaced only after everything was read."},
  {"property": "C350", "status": "proved", "theorems": ["Verif.Pull.C350_count"], "note": ""},
  {"property": "C351", "status": "proved", "theorems": ["Verif.Pull.C351_called"], "note": ""},
  {"property": "C352", "status": "proved", "theorems": ["Verif.Pull.C352_drained", "Verif.Pull.C352_caught_up"], "note": ""},
  {"property": "C353", "status": "partial", "theorems": ["Verif.Pull.C353_told_partial", "Verif.Pull.C353_links", "Verif.Pull.C353_told_violation"], "note": "The code violates it (see the witness); proved for connections and disconnections, and for packets when the callback does not fail."},
  {"property": "C354", "status": "proved", "theorems": ["Verif.Pull.C354_described"], "note": ""},
  {"property": "C355", "status": "partial", "theorems": ["Verif.Pull.C355_takeover_partial", "Verif.Pull.C355_takeover_violation"], "note": "The code violates it (see the witness); proved when no change of the descriptor waits."},
  {"property": "C356", "status": "partial", "theorems": ["Verif.Pull.C356_refused_partial", "Verif.Pull.C356_refused_violation"], "note": "The code violates it (see the witness); proved when nothing waited."},
  {"property": "C357", "status": "proved", "theorems": ["Verif.Journal.C357_same", "Verif.Journal.C357_removed", "Verif.Journal.C357_name"], "note": ""},
  {"property": "C358", "status": "proved", "theorems": ["Verif.Journal.C358_inherit", "Verif.Journal.C358_own", "Verif.Journal.C358_flush"], "note": ""},
  {"property": "C359", "status": "proved", "theorems": ["Verif.Journal.C359_written", "Verif.Journal.C359_should"], "note": ""},
  {"property": "C360", "status": "partial", "theorems": ["Verif.Journal.C360_off_partial", "Verif.Journal.C360_off_violation"], "note": "The code violates it (see the witness); proved for messages of all levels below off."},
  {"property": "C361", "status": "partial", "theorems": ["Verif.Journal.C361_env_partial", "Verif.Journal.C361_env_violation"], "note": "The code violates it (see the witness); proved when the own variable is not a number above all levels."},
  {"property": "C362", "status": "proved", "theorems": ["Verif.Journal.C362_real"], "note": ""},
  {"property": "C363", "status": "proved", "theorems": ["Verif.Files.C363_part", "Verif.Files.C363_other"], "note": ""},
  {"property": "C364", "status": "proved", "theorems": ["Verif.Files.C364_pieces", "Verif.Files.C364_whole", "Verif.Files.C364_progress"], "note": ""},
  {"property": "C365", "status": "proved", "theorems": ["Verif.Files.C365_listed"], "note": ""},
  {"property": "C366", "status": "partial", "theorems": ["Verif.Files.C366_sent_partial", "Verif.Files.C366_sent_violation"], "note": "The code violates it (see the witness); proved when an encoding was given or no id was."},
  {"property": "C367", "status": "partial", "theorems": ["Verif.Files.C367_ids_partial", "Verif.Files.C367_ids_violation"], "note": "The code violates it (see the witness); proved for names without slashes."},
  {"property": "C368", "status": "proved", "theorems": ["Verif.Timer.C368_rate", "Verif.Timer.C368_due", "Verif.Timer.C368_count"], "note": ""},
  {"property": "C369", "status": "proved", "theorems": ["Verif.Timer.C369_delay", "Verif.Timer.C369_due"], "note": ""},
  {"property": "C370", "status": "proved", "theorems": ["Verif.Timer.C370_stopped", "Verif.Timer.C370_again", "Verif.Timer.C370_ended", "Verif.Timer.C370_twice", "Verif.Timer.C370_prompt"], "note": ""},
  {"property": "C371", "status": "partial", "theorems": ["Verif.Timer.C371_stopping_partial", "Verif.Timer.C371_stopping_violation"], "note": "The code violates it (see the witness); proved that at most one more call begins."},
  {"property": "C372", "status": "partial", "theorems": ["Verif.Timer.C372_negative_partial", "Verif.Timer.C372_negative_violation", "Verif.Timer.C372_never_violation"], "note": "The code violates it (see the witnesses); proved for the delays -1 and above."},
  {"property": "C373", "status": "partial", "theorems": ["Verif.Timer.C373_set_partial", "Verif.Timer.C373_set_violation"], "note": "The code violates it (see the witness); proved for the thread that begins next."},
  {"property": "C374", "status": "proved", "theorems": ["Verif.Ping.C374_checksum", "Verif.Ping.C374_fields"], "note": ""},
  {"property": "C375", "status": "proved", "theorems": ["Verif.Ping.C375_recognised", "Verif.Ping.C375_only"], "note": ""},
  {"property": "C376", "status": "partial", "theorems": ["Verif.Ping.C376_complete_partial", "Verif.Ping.C376_count_partial", "Verif.Ping.C376_complete_violation"], "note": "The code violates it (see the witness); proved when only addresses asked answer, and each at most once."},
  {"property": "C377", "status": "partial", "theorems": ["Verif.Ping.C377_asked_partial", "Verif.Ping.C377_asked_violation"], "note": "The code violates it (see the witness); proved when none were found before and only addresses asked answer with the identifier of the process."}
]}
