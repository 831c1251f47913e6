{"id": "C01", "title": "Connection delivers packets in order, without loss or duplication", "statement": "For any history of enqueue, enqueueMultiple, dequeue, dequeueAll and dequeueUpTo calls on a connection, the packets handed to the consumer so far followed by the packets still queued are exactly the packets the connection accepted, in the order they were accepted (plus the implicit gap packets the connection inserts itself directly before the data packet that revealed the gap).", "quantifier": "all finite histories of connection operations, all packets, any interleaving of producer and consumer calls (each call holds the connection mutex)", "why_tests_cant": "the claim ranges over unbounded histories; a test fixes one history", "anchors": ["core/opendaq/signal/src/connection_impl.cpp: enqueueInternal, enqueueMultipleInternal, dequeue, dequeueAll, dequeueUpTo"]}
{"id": "C02", "title": "Available sample count equals the samples actually queued", "statement": "After any history of calls, getAvailableSamples returns the sum of the sample counts of the data packets still queued, and peek/getPacketCount agree with the queue.", "quantifier": "all finite histories of connection operations", "why_tests_cant": "the counter is maintained incrementally; only an invariant over all histories shows it never drifts", "anchors": ["core/opendaq/signal/src/connection_impl.cpp: getAvailableSamples, onPacketEnqueued, onPacketDequeued, countPackets"]}
{"id": "C03", "title": "Event presence query is truthful", "statement": "hasEventPacket answers true exactly when some queued packet is an event packet, after any history of calls.", "quantifier": "all finite histories of connection operations", "why_tests_cant": "counters for events and gaps are updated in five different places; drift needs specific long histories", "anchors": ["core/opendaq/signal/src/connection_impl.cpp: hasEventPacket, hasGapPacket, countPackets, dequeueAll, dequeueUpTo"]}
{"id": "C04", "title": "Samples-until-next-event queries are exact", "statement": "Provided the producer does not submit gap packets itself (the connection's contract forbids it), getSamplesUntilNextEventPacket, getSamplesUntilNextDescriptor and getSamplesUntilNextGapPacket return the number of samples in data packets queued before the first event packet of the respective kind (all samples if there is none).", "quantifier": "all finite histories of connection operations", "why_tests_cant": "the shortcut through cached counters is right only if the counters are right in every reachable state", "anchors": ["core/opendaq/signal/src/connection_impl.cpp: getSamplesUntilNextEventPacket, getSamplesUntilNextDescriptor, getSamplesUntilNextGapPacket"]}
{"id": "C05", "title": "Implicit gap detection is sound and complete", "statement": "With gap checking enabled and a linear domain rule, the connection inserts a gap packet before a data packet exactly when the domain offset of that packet differs from the previous packet's offset plus sampleCount*delta, and the gap packet carries that signed difference.", "quantifier": "all sequences of data packets with integer domain offsets, all deltas, all sample counts", "why_tests_cant": "needs all offset sequences and all positions of descriptor changes", "anchors": ["core/opendaq/signal/src/connection_impl.cpp: checkForGaps, initGapCheck, beginGapCheck, doGapCheck"]}
{"id": "C06", "title": "Queue-became-non-empty notification is never missed", "statement": "With the SchedulerQueueWasEmpty notification method, whenever the consumer has been told that there are no more packets, the next accepted packet schedules a notification of the listener, so a consumer that waits after draining the queue is always woken.", "quantifier": "all finite histories of connection operations", "why_tests_cant": "depends on a flag that is updated by some operations and not by others; a test would need the exact history", "anchors": ["core/opendaq/signal/src/connection_impl.cpp: enqueueInternal, dequeue, dequeueAll, dequeueUpTo", "core/opendaq/signal/include/opendaq/input_port_impl.h: notifyPacketEnqueued"]}
{"id": "C07", "title": "Inactive input ports drop data but keep events", "statement": "While the input port is inactive, enqueue of a data packet leaves the queue unchanged and reports it as ignored, while enqueue of an event packet is still delivered.", "quantifier": "all histories, all packets, all activity changes", "why_tests_cant": "must hold in every reachable state and for both single and batch enqueue", "anchors": ["core/opendaq/signal/src/connection_impl.cpp: enqueueInternal, enqueueMultipleInternal"]}
{"id": "C08", "title": "Linear caching bookkeeping never fails", "statement": "For any sequence of packets added to and buffers taken from the packet streaming server, the bookkeeping of groups of cacheable buffers never raises the 'linear caching' error, and the reported count and size of the group at the head of the queue equal the number and total byte size of the consecutive cacheable buffers at the head of the queue.", "quantifier": "all finite histories of addDaqPacket / getNextPacketBuffer, all payload sizes, all size limits", "why_tests_cant": "the error path is an internal assertion that only a particular interleaving could reach", "anchors": ["shared/libraries/packet_streaming/src/packet_streaming_server.cpp: getPacketCacheableGroupId, queuePacketBuffer, getNextPacketBuffer, getCountOfCacheableBuffers"]}
{"id": "C09", "title": "A packet is transmitted in full only once while it is referenced", "statement": "The packet streaming server sends the payload of a data packet that is not handed over exclusively only once as long as the packet is alive; later sends of the same packet produce only an already-sent reference, and an already-sent reference is never emitted before the payload it refers to.", "quantifier": "all histories of packet sends and packet destructions", "why_tests_cant": "needs every interleaving of sends on several signals with packet destruction", "anchors": ["shared/libraries/packet_streaming/src/packet_streaming_server.cpp: addDataPacket, shouldSendPacket, addAlreadySentPacket"]}
{"id": "C10", "title": "Packet release is announced exactly once and only after destruction", "statement": "Every packet id the server kept referenced is announced for release exactly once after the packet is destroyed, never before, and after a forced release flush no destroyed packet remains unannounced.", "quantifier": "all histories of sends, destructions and release flushes", "why_tests_cant": "schedule dependent", "anchors": ["shared/libraries/packet_streaming/src/packet_streaming_server.cpp: checkAndSendReleasePacket, addDataPacket"]}
{"id": "C11", "title": "Client reproduces the server's packet stream", "statement": "When the buffers emitted by a packet streaming server are fed in order to a packet streaming client, the client never throws and yields the same sequence of data packets (signal, payload, sample count, offset, domain packet, descriptor in force) and of descriptor-changed events as was given to the server, except that events repeating the known descriptors are not repeated.", "quantifier": "all call sequences on the server, on any signals, in which descriptors precede data and each packet is sent while the client holds its domain packet", "why_tests_cant": "end-to-end claim over all interleavings of signals, shared domain packets, already-sent references and releases", "anchors": ["shared/libraries/packet_streaming/src/packet_streaming_server.cpp: addDaqPacket", "shared/libraries/packet_streaming/src/packet_streaming_client.cpp: addPacketBuffer, getNextDaqPacket"]}
{"id": "C12", "title": "Client keeps no reference after all packets are released", "statement": "Once the client has received the release (or the can-release flag) for every packet it was sent, areReferencesCleared answers true.", "quantifier": "all buffer sequences a server can emit, in any domain/value arrival order", "why_tests_cant": "leaks appear only for particular orders of domain and value packets", "anchors": ["shared/libraries/packet_streaming/src/packet_streaming_client.cpp: addReleasePacketBuffer, addAlreadySentPacketBuffer, areReferencesCleared"]}
{"id": "C13", "title": "Transport header round trip", "statement": "Packing a payload type (4 bits) and a payload size up to the documented maximum into the transport header and unpacking it yields the same type and size.", "quantifier": "all payload types 0..15 and all sizes 0..2^28-1", "why_tests_cant": "2^32 inputs; bit-packing errors show only on some", "anchors": ["shared/libraries/native_streaming_protocol/src/native_streaming_protocol_types.cpp: TransportHeader"]}
{"id": "C14", "title": "Configuration protocol packets parse back to what was sent", "statement": "For every packet kind, building the packet and parsing the buffer yields the same packet kind, request id and content.", "quantifier": "all ids, all version sets, all JSON payload strings within the size limit", "why_tests_cant": "unbounded payloads and 64-bit ids", "anchors": ["shared/libraries/config_protocol/src/config_protocol.cpp: PacketBuffer::create*, parse*"]}
{"id": "C15", "title": "Configuration protocol parser never reads outside the received buffer", "statement": "For any received byte buffer, parsing either fails with an error or reads only bytes inside the buffer.", "quantifier": "all byte buffers of all lengths", "why_tests_cant": "adversarial input space", "anchors": ["shared/libraries/config_protocol/src/config_protocol.cpp: PacketBuffer(void*, Bool), parse*"]}
{"id": "C16", "title": "Protocol upgrade accepts exactly the supported versions", "statement": "The server answers an upgrade request positively exactly for the versions it announces in its protocol info reply, and a rejected request leaves the session's protocol version unchanged.", "quantifier": "all 16-bit versions, all server states", "why_tests_cant": "state after a rejected request is not covered by example tests for all versions", "anchors": ["shared/libraries/config_protocol/src/config_protocol_server.cpp: processPacketAndGetReply"]}
{"id": "C17", "title": "Native streaming frame bodies decode to what was encoded", "statement": "Signal-available, subscribe/unsubscribe, property-object and packet-buffer frames decode to the values encoded, and truncated frames are rejected without reading past the frame.", "quantifier": "all field values, all strings and payloads, all truncations", "why_tests_cant": "unbounded strings and byte arrays", "anchors": ["shared/libraries/native_streaming_protocol/src/base_session_handler.cpp: copyData, readSignalAvailable, sendSignalAvailable, readPacketBuffer"]}
{"id": "C18", "title": "Signal subscription state is reference counted exactly", "statement": "registerSignalSubscriber reports 'became subscribed' exactly on the transition from zero to one subscriber, removeSignalSubscriber and unregisterClient report 'became unsubscribed' exactly on the transition to zero, for every history of client and signal operations.", "quantifier": "all histories of (un)register client/signal and (un)subscribe operations", "why_tests_cant": "history dependent, several clients and signals", "anchors": ["shared/libraries/native_streaming_protocol/src/streaming_manager.cpp: registerSignalSubscriber, removeSignalSubscriber, unregisterClient"]}
{"id": "C19", "title": "Packets reach exactly the subscribed clients", "statement": "A packet published for a signal is queued once for every client currently subscribed to that signal and for nobody else; a subscriber that joins late first receives the most recent descriptors.", "quantifier": "all histories, all subscriber sets", "why_tests_cant": "depends on the whole subscription history", "anchors": ["shared/libraries/native_streaming_protocol/src/streaming_manager.cpp: sendPacketToSubscribers, registerSignalSubscriber"]}
{"id": "C20", "title": "Linear write buffers contain exactly the queued frames", "statement": "Merging a group of cacheable packet buffers into one linear buffer never triggers its internal assertions and yields the concatenation of transport header, packet header and payload of each buffer in queue order, so that the receiver parses back the same buffers.", "quantifier": "all queues reachable by the packet streaming server", "why_tests_cant": "size arithmetic over arbitrary groups", "anchors": ["shared/libraries/native_streaming_protocol/src/streaming_manager.cpp: cachePacketsToLinearBuffer, getStreamingWriteTasks"]}
{"id": "C21", "title": "Linear data rule: random access agrees with bulk calculation", "statement": "For a linear rule, the value obtained for one sample index equals the element of the bulk-computed sample array with that index, and the last value equals the last element.", "quantifier": "all deltas, starts, packet offsets, sample counts and indices", "why_tests_cant": "arithmetic over all values", "anchors": ["core/opendaq/signal/include/opendaq/data_rule_calc.h: calculateLinearRule, calculateLinearSample"]}
{"id": "C22", "title": "Constant data rule: random access agrees with bulk calculation and stays in bounds", "statement": "For a constant rule, the value obtained for one sample index equals the element of the bulk-computed sample array, the last value equals the last element, and the bulk computation writes only inside the output array.", "quantifier": "all encoded (position,value) lists, sample counts and indices", "why_tests_cant": "boundary positions and unsorted or out-of-range positions", "anchors": ["core/opendaq/signal/include/opendaq/data_rule_calc.h: calculateConstantRule, calculateConstantSample"]}
{"id": "C23", "title": "Stream reader delivers every sample exactly once in order", "statement": "Concatenating the samples returned by successive reads of a stream reader gives the samples of the connection's data packets in order, without loss, duplication or reordering, regardless of the requested counts and of how samples are split into packets.", "quantifier": "all packetisations of all sample streams and all sequences of requested counts", "why_tests_cant": "unbounded packetisations and read schedules", "anchors": ["core/opendaq/reader/src/stream_reader_impl.cpp: readPackets, readPacketData, onPacketData"]}
{"id": "C24", "title": "Stream reader never writes more than requested and reports the exact count", "statement": "A read with count n writes at most n samples to the caller's buffer and returns in count exactly the number written; an event ends the read unless events are skipped.", "quantifier": "all counts, all queues", "why_tests_cant": "buffer bound must hold for every queue state", "anchors": ["core/opendaq/reader/src/stream_reader_impl.cpp: read, readWithDomain, readPackets"]}
{"id": "C25", "title": "Stream reader available count is exact", "statement": "getAvailableCount returns exactly the number of samples the next read (with a sufficiently large count) will return before the next event.", "quantifier": "all reader and queue states", "why_tests_cant": "depends on the partially consumed packet and on event positions", "anchors": ["core/opendaq/reader/src/stream_reader_impl.cpp: getAvailableCount"]}
{"id": "C26", "title": "Tail reader returns the most recent samples", "statement": "A read of n ≤ history size samples returns the last n samples received (fewer if fewer were received), in order; the history always retains at least min(received, history size) most recent samples.", "quantifier": "all packetisations, history sizes and read counts", "why_tests_cant": "eviction depends on the packetisation", "anchors": ["core/opendaq/reader/src/tail_reader_impl.cpp: packetReceived, readData"]}
{"id": "C27", "title": "Block reader returns whole blocks in order with the configured overlap", "statement": "Block k of a block reader contains samples k*step .. k*step+blockSize-1 of the stream, where step = blockSize - overlap, independent of the packetisation; no read writes more than count blocks.", "quantifier": "all block sizes, overlaps, packetisations and read schedules", "why_tests_cant": "overlap with packet boundaries yields unboundedly many cases", "anchors": ["core/opendaq/reader/src/block_reader_impl.cpp: readPackets, readPacketData, calculateBlockCount"]}
{"id": "C28", "title": "Effective permission of a component is decided by the last rule along the ownership path", "statement": "For every user group and permission bit, the effective decision at an object equals the result of applying, from the nearest non-inheriting ancestor down to the object, each object's permission rules in order, so that the last rule mentioning that group and bit decides.", "quantifier": "all ownership trees, all rule lists, all groups and bits", "why_tests_cant": "unbounded depth and rule lists", "anchors": ["core/coreobjects/src/permission_manager_impl.cpp: setPermissions, setParent", "core/coreobjects/src/permissions_builder_impl.cpp: assign, allow, deny, extend"]}
{"id": "C29", "title": "A denied permission overrides every allowed one", "statement": "isAuthorized is true exactly when none of the user's groups is denied the permission and at least one is allowed; a user without matching groups has no access.", "quantifier": "all users, group lists and permission tables", "why_tests_cant": "decision table over unbounded group sets", "anchors": ["core/coreobjects/src/permission_manager_impl.cpp: isAuthorized"]}
{"id": "C30", "title": "Permission changes propagate to the whole subtree", "statement": "After any history of setPermissions and setParent calls on an acyclic ownership forest, every object's effective permissions are the ones computed from its current ancestors' local permissions.", "quantifier": "all histories of permission and ownership changes", "why_tests_cant": "stale cached permissions appear only after particular histories", "anchors": ["core/coreobjects/src/permission_manager_impl.cpp: updateInheritedPermissions, setParent, setPermissions"]}
{"id": "C31", "title": "Device lock excludes other users", "statement": "Once a user has locked a device, lock by another user fails, unlock by another user fails, and both leave the device locked by the first user; only that user or a forced unlock can unlock it. An anonymous lock can be unlocked by anybody.", "quantifier": "all histories of lock/unlock/forceUnlock calls by all users", "why_tests_cant": "history quantification", "anchors": ["core/opendaq/device/src/user_lock_impl.cpp: lock, unlock, forceUnlock, isLocked"]}
{"id": "C32", "title": "Authentication accepts exactly the configured credentials", "statement": "authenticate succeeds exactly for a configured user with the matching password; anonymous authentication succeeds exactly when allowed; when a user name is configured twice, the last definition counts.", "quantifier": "all user lists, names and passwords", "why_tests_cant": "unbounded inputs", "anchors": ["core/coreobjects/src/authentication_provider_impl.cpp: authenticate, authenticateAnonymous, findUser"]}
{"id": "C33", "title": "Ratio simplification preserves the value and equality means equal value", "statement": "simplify returns a ratio with the same mathematical value in lowest terms, and two ratios compare equal exactly when they denote the same rational number.", "quantifier": "all 64-bit numerators and denominators", "why_tests_cant": "2^128 inputs", "anchors": ["core/coretypes/src/ratio_impl.cpp: simplify, equals", "core/coretypes/include/coretypes/ctutils.h: simplify"]}
{"id": "C34", "title": "Component id helpers respect path structure", "statement": "Splitting a relative id on its first separator and joining it back is the identity, and the nested-component test is true exactly when the first id is a proper path prefix of the second.", "quantifier": "all id strings", "why_tests_cant": "all strings", "anchors": ["core/opendaq/utility/include/opendaq/ids_parser.h: splitRelativeId, isNestedComponentId"]}
{"id": "C35", "title": "Looking up a component by global id inverts getGlobalId", "statement": "For every component in the tree, looking up its global id on the server returns that component, and looking up any other string returns nothing or a component whose id path matches.", "quantifier": "all component trees with sibling-unique local ids and all strings", "why_tests_cant": "unbounded tree depth", "anchors": ["shared/libraries/config_protocol/src/config_protocol_server.cpp: findComponent"]}
{"id": "C36", "title": "Cyclic connection check is exact and terminates", "statement": "After every history, connecting a signal to an input port is refused as cyclic, and changes nothing, exactly when the signal is produced (directly or through any chain of connected function blocks) downstream of that port; the check terminates on every graph, cyclic ones included. Function blocks never feed themselves as long as ports keep their listeners.", "quantifier": "all histories of creating blocks, signals and ports, connecting, disconnecting and changing listeners", "why_tests_cant": "graph reachability over all graphs", "anchors": ["core/opendaq/signal/src/cyclic_ref_check.cpp", "core/opendaq/signal/include/opendaq/input_port_impl.h: canConnectSignal, connectInternal, disconnectSignalInternal", "core/opendaq/signal/include/opendaq/signal_impl.h: listenerConnectedInternal, listenerDisconnected"]}
{"id": "C37", "title": "Component tags behave as a set and report exactly the changes", "statement": "After any history of add, remove and replace, contains answers membership in the set obtained by the same operations, and a change event is raised exactly when the operation changed the set (replace always raises). Saving and loading gives an equal tag set; a client that applies every event holds the same tags.", "quantifier": "all histories of tag operations", "why_tests_cant": "history quantification", "anchors": ["core/opendaq/component/include/opendaq/tags_impl.h", "shared/libraries/config_protocol/include/config_protocol/config_client_component_impl.h: tagsChanged"]}
{"id": "C38", "title": "Component statuses keep their type and report exactly the changes", "statement": "getStatus returns the value most recently set for that name; a status can be set only after being added and only with a value of the same enumeration type; a change event is raised exactly when value or message changed. Saving and loading keeps all statuses and messages; a client that applies every event holds the same statuses.", "quantifier": "all histories of status operations", "why_tests_cant": "history quantification", "anchors": ["core/opendaq/component/include/opendaq/component_status_container_impl.h", "shared/libraries/config_protocol/include/config_protocol/config_client_component_impl.h: statusChanged"]}
{"id": "C39", "title": "Reading a property returns the last accepted write or the default", "statement": "getPropertyValue returns the value stored by the last successful set since the last clear, brought into the property's range, else the default value; a failed set leaves every property unchanged; every call succeeds or fails exactly as the property's constraints say.", "quantifier": "all histories of set, clear, add, remove, reorder and freeze on a property object without write handlers, all property definitions and values", "why_tests_cant": "history quantification", "anchors": ["core/coreobjects/include/coreobjects/property_object_impl.h: setPropertyValueInternal, getPropertyAndValueInternal, clearPropertyValueInternal, writeLocalValue"]}
{"id": "C40", "title": "Stored property values always satisfy the property's constraints", "statement": "In every reachable state the stored value of a property satisfies its minimum/maximum, its validator and its selection list, whatever values were written.", "quantifier": "all histories and all values", "why_tests_cant": "the order in which coercion, validation and range limiting are applied matters only for particular values", "anchors": ["core/coreobjects/include/coreobjects/property_object_impl.h: coercePropertyWrite, validatePropertyWrite, coerceMinMax, checkSelectionValues"]}
{"id": "C41", "title": "Read-only and frozen properties cannot be changed through the public interface", "statement": "Outside an update a public set or clear of a read-only property fails and changes nothing; no history of public calls, updates and write handlers changes its value; a frozen object refuses every change.", "quantifier": "all histories, all property objects, all write handlers", "why_tests_cant": "must hold in every reachable state, also inside batched updates", "anchors": ["core/coreobjects/include/coreobjects/property_object_impl.h: setPropertyValueInternal, clearPropertyValueInternal, freeze, endApplyUpdate"]}
{"id": "C42", "title": "Batched updates apply all changes in order at the outermost end", "statement": "Between beginUpdate and the matching endUpdate no property value changes; the outermost endUpdate leaves the object as if the recorded sets and clears had been called in order at that moment up to the first that fails, whose error it returns; its event lists every changed property with its value.", "quantifier": "all nestings and all recorded action sequences, all write handlers that do not look at the update flag", "why_tests_cant": "unbounded nesting and sequences", "anchors": ["core/coreobjects/include/coreobjects/property_object_impl.h: beginUpdate, endUpdateInternal, endApplyUpdate"]}
{"id": "C43", "title": "Property order is a permutation of the properties", "statement": "getAllProperties lists every class and local property exactly once: first the ones in the custom order, then the others in declaration order.", "quantifier": "all property sets and all custom orders (with unknown or repeated names)", "why_tests_cant": "unbounded lists", "anchors": ["core/coreobjects/include/coreobjects/property_object_impl.h: getPropertiesInternal, setPropertyOrder"]}
{"id": "C44", "title": "Recursive property writes from event handlers terminate with the innermost value", "statement": "When write handlers write the same property again, the value finally stored is the one from the innermost write and each nesting level is unwound exactly once, leaving no residue.", "quantifier": "all nested write patterns", "why_tests_cant": "unbounded recursion patterns", "anchors": ["core/coreobjects/include/coreobjects/property_object_utils.h: PropertyUpdateStack"]}
{"id": "C45", "title": "Expression parser follows the documented precedence", "statement": "Lexer and parser end on every text. A token sequence is read to its end as a tree exactly if the grammar (levels of left-associative operators, parentheses, lists, if, switch, Unit, references) derives it as that tree, so the grammar is unambiguous; every tree can be written and is read back; the tokens found in a text are exactly those laid out in it, separated by blanks where needed.", "quantifier": "all texts, all token sequences, all expression trees", "why_tests_cant": "unbounded nesting", "anchors": ["core/coreobjects/src/eval_value_parser.cpp: expression, prefix, infix", "core/coreobjects/src/eval_value_lexer.cpp: tokenize, scanToken"]}
{"id": "C46", "title": "Replaying the last descriptor reproduces the descriptors in force", "statement": "enqueueLastDescriptor puts exactly one descriptor-changed event at the front of the queue, carrying the value descriptor and the domain descriptor most recently announced by accepted packets; before any was announced it does nothing.", "quantifier": "every history of calls on a connection", "why_tests_cant": "The two descriptors are remembered independently across arbitrary interleavings of partial descriptor changes, batches and dequeues.", "anchors": ["core/opendaq/signal/src/connection_impl.cpp: enqueueLastDescriptor, onPacketEnqueued"]}
{"id": "C47", "title": "Client delivers every packet exactly once for any order of value and domain packets", "statement": "Fed with the buffers of a packet streaming server, the client never throws and has, for every data packet given to the server, either delivered it exactly once on its signal with its payload and domain packet, or holds it back because its domain packet has not arrived; once all domain packets were sent nothing is held back.", "quantifier": "all call sequences on the server in which packets are used as objects with a lifetime (not used after destruction or exclusive hand-over), in any order of value and domain packets", "why_tests_cant": "depends on the interleaving of held-back buffers, chains of domain packets, already-sent references and releases", "anchors": ["shared/libraries/packet_streaming/src/packet_streaming_client.cpp: addDataPacketBuffer, addAlreadySentPacketBuffer, addReleasePacketBuffer, addPacketBuffer"]}
{"id": "C48", "title": "Protocol handshake ends on a common version", "statement": "When a configuration client connects, client and server end on the same protocol version, one that both support: the requested version, or the largest common one if the latest was requested. If no such version exists the handshake fails and the server's version is unchanged.", "quantifier": "all sets of versions announced by the server, all requested versions, all request ids and server states", "why_tests_cant": "tests run the one shipped version set against itself; the claim covers every combination of version sets and requests, including future and older servers", "anchors": ["shared/libraries/config_protocol/include/config_protocol/config_protocol_client.h: ConfigProtocolClient::protocolHandshake", "shared/libraries/config_protocol/src/config_protocol_server.cpp: ConfigProtocolServer::processPacketAndGetReply", "shared/libraries/config_protocol/src/config_protocol.cpp: PacketBuffer"]}
{"id": "C49", "title": "Packet streaming settings are applied as named", "statement": "For every client that requests streaming, packets are cached into linear buffers up to the server's StreamingCacheablePayloadSizeMax and released ids are announced from StreamingPacketReleaseThreshold on.", "quantifier": "all settings, all histories, all clients", "why_tests_cant": "two size_t arguments of the same type can be exchanged without any visible failure", "anchors": ["shared/libraries/native_streaming_protocol/src/native_streaming_server_handler.cpp: handleStreamingInit", "shared/libraries/native_streaming_protocol/src/streaming_manager.cpp: registerClient"]}
{"id": "C50", "title": "A client signal belongs to the client that announced it", "statement": "The server knows a signal announced by a client under the numeric id and client of its first announcement until that client withdraws it or disconnects; other clients do not affect it; on disconnection exactly the client's signals are reported.", "quantifier": "all histories of announcements, withdrawals and disconnections", "why_tests_cant": "depends on several clients using the same string id", "anchors": ["shared/libraries/native_streaming_protocol/src/streaming_manager.cpp: registerClientSignal, unregisterClientSignal, unregisterClientSignals, doClientSignalSubscription"]}
{"id": "C51", "title": "A value read by index is the element of the sample buffer", "statement": "For every packet and index below the sample count, the value read by index equals the element of the packet's sample buffer at that index; the last value equals the last element; other indices are refused.", "quantifier": "all descriptors accepted by validation, all sample contents, offsets, counts and indices, all histories of the packet", "why_tests_cant": "two code paths (bulk and single) over rule, scaling and reference domain offset combinations for unbounded contents", "anchors": ["core/opendaq/signal/include/opendaq/data_packet_impl.h: getValueByIndex, getLastValue, getRawValueByIndex, getData", "core/opendaq/signal/src/data_descriptor_impl.cpp: validate"]}
{"id": "C52", "title": "Packets deliver the samples of their current contents within their memory", "statement": "After any history of writing raw samples, reading and reusing a packet, reading it delivers exactly the samples of its current descriptor, count, offset and contents, without accessing memory outside its allocations; a refused reuse changes nothing.", "quantifier": "all histories of writes, reads and reuses, all descriptors and counts", "why_tests_cant": "depends on cached buffers left behind by earlier operations and on sizes no test allocates", "anchors": ["core/opendaq/signal/include/opendaq/data_packet_impl.h: DataPacketImpl constructors, getData, reuse, updateCalcFlags"]}
{"id": "C53", "title": "A read whose samples are available does not wait", "statement": "A timed read of a stream reader returns at once when the requested samples are already available (or, in Any mode, when at least one is), and never returns short without an event when enough samples are queued.", "quantifier": "all histories, requested counts and timeout types", "why_tests_cant": "the wait condition depends on the partially read packet and on unsigned arithmetic", "anchors": ["core/opendaq/reader/src/stream_reader_impl.cpp: readPackets (wait condition), getAvailableCount"]}
{"id": "C54", "title": "Locking a device locks its sub-devices, all or nothing", "statement": "lock succeeds exactly when the device and all devices below are free or held by an equal user, and then holds all of them; unlock succeeds exactly when the parent device is not locked and the caller may unlock the device and all devices below, and then frees all of them; forceUnlock needs only the first. A call that fails changes nothing. After every history the sub-devices of a locked device are locked by the same user.", "quantifier": "all device trees, users and histories of lock, unlock and forceUnlock", "why_tests_cant": "rollback of a partially locked tree depends on the shape of the tree and on who held which device before", "anchors": ["core/opendaq/device/include/opendaq/device_impl.h: lock, unlock, forceUnlock, lockInternal, unlockInternal, revertLockedDevices", "core/opendaq/device/src/user_lock_impl.cpp"]}
{"id": "C55", "title": "Ratio products and quotients are exact or reported", "statement": "A product or quotient of ratios (and of a ratio and an integer) that is returned has exactly the mathematical value, and is again a valid ratio. Dividing by a ratio of value zero is reported as an error. The only other outcome is overflow of one of the two integer products.", "quantifier": "all 64-bit numerators and denominators", "why_tests_cant": "2^256 inputs", "anchors": ["core/coretypes/include/coretypes/ratio_ptr.h: operators * and /", "core/coretypes/src/ratio_impl.cpp"]}
{"id": "C56", "title": "findComponent follows relative ids", "statement": "findComponent on a component with a relative id of non-empty segments returns the component at that path below it, with a leading slash the same below the root, and nothing if there is none.", "quantifier": "all component trees, components and id strings", "why_tests_cant": "unbounded tree depth and all strings", "anchors": ["core/opendaq/component/include/opendaq/component_impl.h: findComponent", "core/opendaq/utility/include/opendaq/ids_parser.h"]}
{"id": "C57", "title": "A folder is an ordered map and removal reaches everything below", "statement": "Items are listed in the order of adding, at most one per local id; getItem, hasItem and getItems agree after any history; addItem, removeItem and clear have exactly the map effect or fail without effect. Removing a component marks everything below it as removed, and nothing else.", "quantifier": "all component trees and histories of addItem, removeItem, clear and remove", "why_tests_cant": "history and tree quantification", "anchors": ["core/opendaq/component/include/opendaq/folder_impl.h: addItem, removeItem, clear, removed", "core/opendaq/component/include/opendaq/component_impl.h: remove"]}
{"id": "C58", "title": "A component is active exactly when it and all its ancestors are", "statement": "After any history of setActive on components whose parents were fixed at creation, a component reports active exactly when its own active flag and those of all its ancestors are set; setActive changes only the subtree.", "quantifier": "all component trees and histories of setActive, addItem, removal", "why_tests_cant": "propagation over trees of any depth", "anchors": ["core/opendaq/component/include/opendaq/component_impl.h: setActive, setParentActive, getActive", "core/opendaq/component/include/opendaq/folder_impl.h: onParentActiveChanged"]}
{"id": "C59", "title": "Packets of a packet buffer never share memory", "statement": "After every history of creating packets of at least one byte (of less than 2^64 bytes), releasing them in any order, and resizing, the packets that exist lie inside the buffer and no two share a byte; a new packet has the requested size; a resize takes effect only when no packet exists.", "quantifier": "all buffer sizes, all histories, all orders of release", "why_tests_cant": "needs all interleavings of creation and release across the end of the ring", "anchors": ["core/opendaq/utility/src/packet_buffer_impl.cpp: Write, Read, CleanOosPackets, createPacket, resize"]}
{"id": "C60", "title": "The packet buffer's query for the largest packet is exact", "statement": "While no resize is waiting, creating a packet of at least one byte succeeds exactly if its number of samples is at most the number reported by getMaxAvailableContinousSampleCount for its descriptor.", "quantifier": "all states of the buffer, all sample sizes and counts", "why_tests_cant": "the boundary differs for each position of reading and writing", "anchors": ["core/opendaq/utility/src/packet_buffer_impl.cpp: getMaxAvailableContinousSampleCount, Write"]}
{"id": "C61", "title": "Memory of released packets becomes available again", "statement": "Once all packets of a buffer are released, its memory is available again: a waiting resize has taken effect, a further one takes effect at once, and packets can be created.", "quantifier": "all buffer sizes, all histories", "why_tests_cant": "a loss of memory shows only after particular orders of release across the end of the ring", "anchors": ["core/opendaq/utility/src/packet_buffer_impl.cpp: Read, CleanOosPackets, resize"]}
{"id": "C62", "title": "The signals of a multi reader start at the same instant", "statement": "When every signal of a multi reader has samples, there is one instant, on the raster of the common rate and not before the next sample of any signal (the first such instant unless all are before the common origin), such that whatever arrives afterwards and however it is read, each signal delivers exactly its samples from that instant on, in order; and a call reads something as soon as all signals have samples from there on. Condition: samples follow each other at equal distances, resolutions are whole multiples of the finest, origins and the raster whole numbers of its ticks, ticks below 2^53. A new reader that has taken the descriptors of its signals and got their first packets meets this; its raster is a second or the shortest time after which all signals have a sample again.", "quantifier": "all numbers of signals, rates, origins and positions, all sequences of packets and calls", "why_tests_cant": "depends on rational arithmetic over all resolutions and on how packets are cut around the start", "anchors": ["core/opendaq/reader/src/multi_reader_impl.cpp: synchronize, setStartInfo, readDomainStart, sync", "core/opendaq/reader/src/signal_reader.cpp: sync", "core/opendaq/reader/src/typed_reader.cpp: getOffsetToDataLinear"]}
{"id": "C63", "title": "The signals of a multi reader advance together", "statement": "Once synchronised, for all sequences of data packets and calls: each signal delivers its samples in order without leaving out or repeating any, as many as the reported counts divided by its divider say, and no call hangs or fails. If all signals have the common rate, or every reported count is a multiple of the dividers, each signal has delivered its share of the total count. The common rate of a new reader whose signals have whole rates is the required rate, or the least common multiple of the rates; the divider of each signal is the common rate divided by its rate.", "quantifier": "all synchronised readers, all sequences of packets, reads and skips", "why_tests_cant": "the cutting of packets and requests is unbounded", "anchors": ["core/opendaq/reader/src/multi_reader_impl.cpp: readPackets, readSamples", "core/opendaq/reader/src/signal_reader.cpp: readPackets, readPacketData", "core/opendaq/reader/src/multi_reader_impl.cpp: updateCommonSampleRateAndDividers"]}
{"id": "C64", "title": "What a multi reader reports as available can be read", "statement": "If a valid reader reports n > 0 samples as available, and its positions are within the packets, an immediate read of n gives exactly n samples and no event, and n is a multiple of what the rates have in common; no more is reported than all signals have; while data flows a read gives the smaller of the rounded request and what all signals have.", "quantifier": "all states of the reader, all counts", "why_tests_cant": "the number depends on all signals, partly read packets and waiting events", "anchors": ["core/opendaq/reader/src/multi_reader_impl.cpp: getAvailableCount, getMinSamplesAvailable, readPackets"]}
{"id": "C65", "title": "A valid multi reader writes only to the buffers of the call", "statement": "For every history of a new reader: while it is valid, a read writes only to the buffers passed to that call, and (with a minimal count of at most 1) for each signal no more samples than the requested count divided by its divider.", "quantifier": "all histories including descriptor changes, gaps and other events", "why_tests_cant": "memory beyond a buffer or of an earlier call is overwritten silently", "anchors": ["core/opendaq/reader/src/multi_reader_impl.cpp: read, readWithDomain, readPackets"]}
{"id": "C66", "title": "Input ports and signals agree about connections", "statement": "After any sequence of calls: the connections a signal reports are exactly those of the ports that report being connected to it, each once; removed signals and ports are not connected; a signal is notified as listened to exactly when it has connections; the signals a domain signal is referenced by are exactly those that have it as domain. Connecting succeeds unless signal or port were removed, a cycle would arise or the listener refuses; a failure that is not a refusal changes nothing; other ports are never affected.", "quantifier": "all numbers of signals and ports, all sequences of connect, disconnect, remove, domain and other calls", "why_tests_cant": "both sides are stored separately and the sequences are unbounded", "anchors": ["core/opendaq/signal/include/opendaq/input_port_impl.h: connectInternal, disconnectSignalInternal, removed", "core/opendaq/signal/include/opendaq/signal_impl.h: listenerConnectedInternal, listenerDisconnected, removed, setDomainSignal"]}
{"id": "C67", "title": "A signal delivers to exactly its connections", "statement": "In every reachable state each call adds to every connection exactly: the packets sent, in order, if the signal is active, connected and the connection is not remote; the event with its new descriptor; the event with the new descriptor of its domain if it is active; nothing else. A new connection starts with one event holding the descriptors of signal and domain. A connection that was ended gets nothing any more.", "quantifier": "all reachable states, calls and connections", "why_tests_cant": "every call must be checked in every state", "anchors": ["core/opendaq/signal/include/opendaq/signal_impl.h: keepLastPacketAndEnqueue, keepLastPacketAndEnqueueMultiple, setDescriptor, listenerConnectedInternal"]}
{"id": "C68", "title": "Whoever follows a connection knows the descriptor of the signal", "statement": "After any sequence of calls (nobody sends descriptors as packets), the descriptor events of a connection yield the current descriptor of the signal.", "quantifier": "all sequences of calls, all connections", "why_tests_cant": "the knowledge depends on the whole history", "anchors": ["core/opendaq/signal/include/opendaq/signal_impl.h: setDescriptor, createDataDescriptorChangedEventPacket", "core/opendaq/signal/include/opendaq/event_packet_utils.h: descriptorToEventPacketParam"]}
{"id": "C69", "title": "The last value is the last sample sent", "statement": "While a signal is active, public and keeps its last value, the last value is the last sample of the last packet with samples that was sent, whatever else is done; a signal that is not public or does not keep it has none unless it was set; a value that is set is returned.", "quantifier": "all sequences of calls, all packets", "why_tests_cant": "depends on the whole history", "anchors": ["core/opendaq/signal/include/opendaq/signal_impl.h: checkKeepLastPacket, sendPackets, setKeepLastPacket, getLastValueImpl", "core/opendaq/signal/include/opendaq/last_value_cache.h: cacheValue"]}
{"id": "C70", "title": "Keeping the last value stays within its buffer", "statement": "For every sequence of packets and calls the buffer that keeps the last value is at least as large as what is copied into it.", "quantifier": "all descriptors, sample sizes, scalings and sequences", "why_tests_cant": "writing a few bytes past a buffer usually goes unnoticed", "anchors": ["core/opendaq/signal/include/opendaq/last_value_cache.h: cacheValue", "core/opendaq/signal/include/opendaq/data_packet_impl.h: getRawValueByIndex", "core/opendaq/signal/src/data_descriptor_impl.cpp: calculateSampleMemSize"]}
{"id": "C71", "title": "Core events and listener calls tell what a port is connected to", "statement": "Whoever follows the core events of an input port that was not removed knows the signal it is connected to, and its listener knows whether it is connected, after any sequence of calls.", "quantifier": "all sequences of calls on signals and ports", "why_tests_cant": "depends on the whole history, including failed calls", "anchors": ["core/opendaq/signal/include/opendaq/input_port_impl.h: connectInternal, disconnectSignalInternal"]}
{"id": "C72", "title": "Whoever follows a connection knows the descriptor of the domain", "statement": "After any sequence of calls (nobody sends descriptors as packets), the descriptor events of a connection yield the current descriptor of the domain signal of the signal.", "quantifier": "all sequences of calls, all connections", "why_tests_cant": "the knowledge depends on the whole history of two signals", "anchors": ["core/opendaq/signal/include/opendaq/signal_impl.h: setDescriptor, setDomainSignal, removed, createDataDescriptorChangedEventPacket"]}
{"id": "C73", "title": "A multi reader reports every change of its signals before it reads on", "statement": "When the next packet of a signal is an event with new descriptors or a gap, a read of a valid reader gives no samples and reports, for each signal, the last value descriptor and the last domain descriptor among the events before its next data or gap, or the gap if it comes first. The reader becomes invalid if a reported descriptor cannot be converted, gives no whole rate or another rate than the signal had, and stays valid if none does and the rates can be read together; resolution and origin reported are used from then on. Behind a gap the signal counts as not synchronised, and C62 applies to what follows. An invalid reader stays invalid and reads no samples, but still reports new descriptors.", "quantifier": "all states of the reader, all queues of packets, all calls to read", "why_tests_cant": "which of several events in a row count, and how the signals are read on, depends on the order of packets in all queues", "anchors": ["core/opendaq/reader/src/multi_reader_impl.cpp: readAndSynchronize, updateCommonSampleRateAndDividers, packetReceived", "core/opendaq/reader/src/signal_reader.cpp: readUntilNextDataPacket, handleDescriptorChanged, skipUntilLastEventPacket"]}
{"id": "C74", "title": "An object lives as long as it is referenced and is destroyed once", "statement": "However the calls of any number of threads interleave, an object with weak reference support stays alive while a client holds a strong reference, its destructor and the release of its counters each run at most once, no call touches memory that was given back, and once destroyed nobody gets a strong reference again.", "quantifier": "all executions: any number of clients, strong and weak references and overlapping calls, any interleaving of their atomic steps", "why_tests_cant": "races between the last release and the promotion of a weak reference show up in few of the interleavings", "anchors": ["core/coretypes/include/coretypes/intfs.h: addRef, releaseRef, RefCount", "core/coretypes/include/coretypes/weakref_impl.h: WeakRefImpl", "core/coretypes/include/coretypes/weakrefobj.h: getWeakRef"]}
{"id": "C75", "title": "A weak reference gives the object or says it is gone, and is right", "statement": "A promotion of a weak reference that succeeds gives the caller a strong reference of its own to the live object. One that says the object is gone is right: nobody holds a strong reference, then or later, and no later promotion succeeds; it never happens while somebody holds a strong reference. A reference to a weak reference object keeps it and the counters it reads.", "quantifier": "all executions, any interleaving, promotions racing with releases", "why_tests_cant": "needs all interleavings of load, compare-exchange and decrement", "anchors": ["core/coretypes/include/coretypes/weakref_impl.h: getRef, getRefAs"]}
{"id": "C76", "title": "No reference is lost: what everybody released is destroyed and freed", "statement": "When no client holds a strong reference and no call is in progress, the destructor has run exactly once. When in addition all references to weak reference objects are released, all the memory is given back: object, counters and weak reference objects. Every call in progress can finish.", "quantifier": "all executions, any interleaving", "why_tests_cant": "a leak in a rare interleaving fails no assertion", "anchors": ["core/coretypes/include/coretypes/intfs.h: releaseRef", "core/coretypes/include/coretypes/weakref_impl.h: ~WeakRefImpl"]}
{"id": "C77", "title": "A program that keeps the rules of smart pointers neither leaks nor touches destroyed objects", "statement": "A program copies, moves, converts, borrows, detaches and adopts smart pointers in any way, but assigns only what somebody else keeps, converts only to interfaces objects have, and uses a borrowing pointer neither for out parameters, nor to detach, nor after the last owner is gone. Then no destroyed object is touched, every object lives exactly as long as somebody owns it, assignments have their meaning, and nothing is left when all variables are gone.", "quantifier": "all programs over any number of variables and objects that keep the rules", "why_tests_cant": "leaks and double releases depend on the sequence of operations", "anchors": ["core/coretypes/include/coretypes/objectptr.h: operator=, release, detach, Adopt, Borrow, operator&, as"]}
{"id": "C78", "title": "Smart pointers are safe whatever is assigned", "statement": "The same without rules: a failed conversion leaves the variable as it was or empty, a view or interface pointer of the variable's own object can be assigned to it, an object returned through an out parameter is owned by the variable.", "quantifier": "all programs over any number of variables and objects", "why_tests_cant": "the failing cases need an exception or a last reference at the right place", "anchors": ["core/coretypes/include/coretypes/objectptr.h: operator=, release, detach, Adopt, Borrow, operator&, as"]}
{"id": "C79", "title": "Equality of values compares contents", "statement": "For values without null references, not-a-numbers and zero characters, whose dictionaries have comparable and different keys, equals never crashes, holds exactly for the same content at every depth (dictionaries in any order), and is reflexive, symmetric and transitive.", "quantifier": "all pairs and triples of such values, lists and dictionaries nested to any depth", "why_tests_cant": "the depth and mix of values is unbounded", "anchors": ["core/coretypes/include/coretypes/ordinalobject_impl.h: equals, getHashCode, compareTo", "core/coretypes/src/stringobject_impl.cpp: StringImpl::equals, getHashCode, compareTo", "core/coretypes/src/complex_number_impl.cpp: equals, compareTo", "core/corecontainers/src/listobject_impl.cpp: ListImpl::equals", "core/corecontainers/src/dictobject_impl.cpp: DictImpl::equals"]}
{"id": "C80", "title": "Equality works for all values", "statement": "The same for all values, including null references, not-a-numbers and strings with zero characters.", "quantifier": "all pairs of values", "why_tests_cant": "the failing combinations are unusual", "anchors": ["core/coretypes/include/coretypes/ordinalobject_impl.h: equals, getHashCode, compareTo", "core/coretypes/src/stringobject_impl.cpp: StringImpl::equals, getHashCode, compareTo", "core/coretypes/src/complex_number_impl.cpp: equals, compareTo", "core/corecontainers/src/listobject_impl.cpp: ListImpl::equals", "core/corecontainers/src/dictobject_impl.cpp: DictImpl::equals"]}
{"id": "C81", "title": "A dictionary is a map that keeps the order of insertion", "statement": "With keys that are booleans, integers, floats in the range of a hash code, strings, complex numbers or plain objects, a dictionary answers every sequence of calls like an insertion-ordered map with keys compared by content, equal keys have equal hash codes, and no call crashes.", "quantifier": "all sequences of calls with such keys and any values", "why_tests_cant": "the history of calls is unbounded", "anchors": ["core/corecontainers/src/dictobject_impl.cpp: DictImpl::get, set, remove, deleteItem, clear, hasKey, freeze", "core/corecontainers/include/coretypes/dictobject_impl.h: BaseObjectHash, BaseObjectEqualTo"]}
{"id": "C82", "title": "A dictionary is a map for all keys", "statement": "The same for keys of every kind that can be compared, and for asking about a null key.", "quantifier": "all sequences of calls", "why_tests_cant": "needs keys whose hash code does not follow their content", "anchors": ["core/corecontainers/src/dictobject_impl.cpp: DictImpl::get, set, remove, deleteItem, clear, hasKey, freeze", "core/corecontainers/include/coretypes/dictobject_impl.h: BaseObjectHash, BaseObjectEqualTo"]}
{"id": "C83", "title": "A copy has the same content in new containers", "statement": "clone gives a value with the same content and element types, whose lists and dictionaries are all new and distinct objects, while other objects are shared; for plain values the copy equals the original.", "quantifier": "all values, nested to any depth", "why_tests_cant": "the depth is unbounded", "anchors": ["core/corecontainers/src/listobject_impl.cpp: ListImpl::clone", "core/corecontainers/src/dictobject_impl.cpp: DictImpl::clone"]}
{"id": "C84", "title": "Values of one kind are totally ordered", "statement": "compareTo of two booleans, two integers, two floats other than not-a-number or two strings without zero characters says which is smaller in the usual order, and says equal exactly when equals does.", "quantifier": "all pairs of values of one kind", "why_tests_cant": "the domain is unbounded", "anchors": ["core/coretypes/include/coretypes/ordinalobject_impl.h: equals, getHashCode, compareTo", "core/coretypes/src/stringobject_impl.cpp: StringImpl::equals, getHashCode, compareTo", "core/coretypes/src/complex_number_impl.cpp: equals, compareTo", "core/corecontainers/src/listobject_impl.cpp: ListImpl::equals", "core/corecontainers/src/dictobject_impl.cpp: DictImpl::equals"]}
{"id": "C85", "title": "Comparison does not depend on the side", "statement": "compareTo of numbers of different kinds, and of complex numbers, agrees with their numerical order from both sides.", "quantifier": "all pairs of numbers", "why_tests_cant": "needs fractions, large numbers or low bytes at the right place", "anchors": ["core/coretypes/include/coretypes/ordinalobject_impl.h: equals, getHashCode, compareTo", "core/coretypes/src/stringobject_impl.cpp: StringImpl::equals, getHashCode, compareTo", "core/coretypes/src/complex_number_impl.cpp: equals, compareTo", "core/corecontainers/src/listobject_impl.cpp: ListImpl::equals", "core/corecontainers/src/dictobject_impl.cpp: DictImpl::equals"]}
{"id": "C86", "title": "Values survive JSON", "statement": "A value made of null elements, booleans, 64-bit integers, floats whose text is read back exactly, strings without zero characters, ratios, complex numbers, lists and dictionaries with comparable and different keys is written without an error, and reading the result gives the same content, including element types if the version writes them.", "quantifier": "all such values, nested to any depth; all interface identifiers", "why_tests_cant": "the depth and mix of values is unbounded", "anchors": ["core/coretypes/src/json_deserializer_impl.cpp: Deserialize, DeserializeTagged, DeserializeList", "core/corecontainers/src/listobject_impl.cpp: ListImpl::serialize, deserializeList", "core/corecontainers/src/dictobject_impl.cpp: DictImpl::serialize, deserializeDict", "core/coretypes/src/util.cpp: daqInterfaceIdToString, daqStringToInterfaceId"]}
{"id": "C87", "title": "JSON never changes a value silently", "statement": "Writing a value either fails or gives JSON, and reading either fails with an error code or gives what was written.", "quantifier": "all values and all JSON documents", "why_tests_cant": "needs documents or values outside the usual ones", "anchors": ["core/coretypes/src/json_deserializer_impl.cpp: Deserialize, DeserializeTagged, DeserializeList", "core/corecontainers/src/listobject_impl.cpp: ListImpl::serialize, deserializeList", "core/corecontainers/src/dictobject_impl.cpp: DictImpl::serialize, deserializeDict", "core/coretypes/src/util.cpp: daqInterfaceIdToString, daqStringToInterfaceId"]}
{"id": "C88", "title": "Elements are read in order", "statement": "Reading a written list element by element gives all its values in order; whatever is called, the position stays within the list, moves by at most one, and does not move when the end, another type or null is reported.", "quantifier": "all lists and all sequences of calls", "why_tests_cant": "the sequences are unbounded", "anchors": ["core/coretypes/src/json_serialized_list.cpp: JsonSerializedList", "core/coretypes/src/json_deserializer_impl.cpp: Deserialize, DeserializeTagged, DeserializeList", "core/corecontainers/src/listobject_impl.cpp: ListImpl::serialize, deserializeList", "core/corecontainers/src/dictobject_impl.cpp: DictImpl::serialize, deserializeDict", "core/coretypes/src/util.cpp: daqInterfaceIdToString, daqStringToInterfaceId"]}
{"id": "C89", "title": "Elements can be read by type", "statement": "Every element of a list can be read with the call for its type, after which the next one follows.", "quantifier": "all lists", "why_tests_cant": "needs null elements or large integers", "anchors": ["core/coretypes/src/json_serialized_list.cpp: JsonSerializedList"]}
{"id": "C90", "title": "Packets created together have their own memory", "statement": "With domain descriptors of one rule, and 64-bit integers if that is explicit, all objects and buffers of packets created together lie in one allocated block, do not overlap, are complete and of the size of their samples, and buffers start at multiples of the alignment from the start of the block.", "quantifier": "all numbers of packets, sample counts, sample sizes and alignments whose total fits the address space", "why_tests_cant": "the sizes are unbounded and overlaps corrupt memory silently", "anchors": ["core/opendaq/signal/src/bulk_data_packet.cpp: daqBulkCreateDataPackets, alignTo"]}
{"id": "C91", "title": "Bulk creation keeps what it documents", "statement": "The buffers are aligned as asked, and descriptors that do not fit are refused.", "quantifier": "all calls", "why_tests_cant": "depends on the allocator, the build type and unusual descriptors", "anchors": ["core/opendaq/signal/src/bulk_data_packet.cpp: daqBulkCreateDataPackets, alignTo"]}
{"id": "C92", "title": "The memory of packets created together is freed once, at the end", "statement": "However threads take and release references to the value packets, domain packets and offsets, no freed memory is used, nothing is destroyed while any reference is held, the packets keep their domain packets and offsets, each object is destroyed at most once, and the block is freed when everything is released.", "quantifier": "all interleavings of all calls", "why_tests_cant": "races need particular schedules", "anchors": ["core/opendaq/signal/src/bulk_data_packet.cpp: BulkObject releaseRef, onDestruct", "core/opendaq/signal/include/opendaq/generic_data_packet_impl.h: getDomainPacket"]}
{"id": "C93", "title": "Destruct callbacks of packets created together", "statement": "A subscriber is told when the packet it subscribed to is released by everyone, once.", "quantifier": "all interleavings", "why_tests_cant": "needs packets released at different times", "anchors": ["core/opendaq/signal/src/bulk_data_packet.cpp: BulkObject releaseRef, onDestruct", "core/opendaq/signal/include/opendaq/generic_data_packet_impl.h: getDomainPacket"]}
{"id": "C94", "title": "An event calls its subscribers in order", "statement": "With handlers that leave the event alone, after any history of calls a trigger of an event that is not muted calls exactly the handlers that are subscribed and not muted, once per subscription, in the order of subscription, until one fails; removing or muting affects the first subscription of that handler; a frozen event refuses changes of subscriptions.", "quantifier": "all histories of calls and all handlers", "why_tests_cant": "histories are unbounded", "anchors": ["core/coretypes/src/event_impl.cpp: EventImpl::addHandler, removeHandler, trigger, setMuted, freeze, clear", "core/coretypes/include/coretypes/event_impl.h: EventImpl"]}
{"id": "C95", "title": "Handlers may call the event again", "statement": "Whatever handlers do with the event while they are called, nobody is called who is not subscribed or is muted at that moment; if no handler is added meanwhile nobody is called twice; if none is removed or muted meanwhile, all are called once per subscription, including new ones.", "quantifier": "all programs of calls made by handlers, nested to any depth", "why_tests_cant": "the nesting of calls is unbounded", "anchors": ["core/coretypes/src/event_impl.cpp: EventImpl::addHandler, removeHandler, trigger, setMuted, freeze, clear", "core/coretypes/include/coretypes/event_impl.h: EventImpl"]}
{"id": "C96", "title": "Every subscriber is called and stays alive while called", "statement": "A handler that is subscribed and not muted from the start to the end of a trigger is called, a handler exists while it is called, and a trigger returns.", "quantifier": "all programs of calls made by handlers", "why_tests_cant": "needs handlers that unsubscribe themselves", "anchors": ["core/coretypes/src/event_impl.cpp: EventImpl::addHandler, removeHandler, trigger, setMuted, freeze, clear", "core/coretypes/include/coretypes/event_impl.h: EventImpl"]}
{"id": "C97", "title": "A handler is recognized when it is removed", "statement": "Removing a handler removes the subscription made with the same function, method or callable object, and no other.", "quantifier": "all handlers", "why_tests_cant": "depends on addresses", "anchors": ["core/coretypes/include/coretypes/delegate.hpp: delegate, calcHash", "core/coretypes/include/coretypes/event_handler_impl.h: getHashCode", "core/coretypes/src/event_impl.cpp: EventImpl::addHandler, removeHandler, trigger, setMuted, freeze, clear", "core/coretypes/include/coretypes/event_impl.h: EventImpl"]}
{"id": "C98", "title": "Search filters mean what they say", "statement": "A filter built from tags, visibility, interfaces, local ids, user functions, and, or, not and recursive accepts a component exactly when the documentation says so; without negations it also lets a recursive search enter exactly the documented components.", "quantifier": "all filters, nested to any depth, and all components", "why_tests_cant": "filters can be combined without bound", "anchors": ["core/coretypes/src/search_filter_impl.cpp: acceptsObject, visitChildren", "core/opendaq/component/src/search_filter_impl.cpp: acceptsObject, visitChildren"]}
{"id": "C99", "title": "A negation does not change what a search enters", "statement": "A negated filter lets a recursive search enter the components the inner filter enters.", "quantifier": "all filters and components", "why_tests_cant": "needs hidden components below a negation", "anchors": ["core/coretypes/src/search_filter_impl.cpp: acceptsObject, visitChildren", "core/opendaq/component/src/search_filter_impl.cpp: acceptsObject, visitChildren"]}
{"id": "C100", "title": "A folder search returns exactly the wanted components", "statement": "A recursive search of a folder returns exactly the components the filter accepts that can be reached through folders the filter enters, each once, own items first; a filter that is not recursive returns the accepted items of the folder in order; without a filter the visible items are returned.", "quantifier": "all trees and all filters", "why_tests_cant": "trees are unbounded", "anchors": ["core/coretypes/src/search_filter_impl.cpp: acceptsObject, visitChildren", "core/opendaq/component/src/search_filter_impl.cpp: acceptsObject, visitChildren", "core/opendaq/component/include/opendaq/component_impl.h: searchItems", "core/opendaq/component/include/opendaq/folder_impl.h: getItems"]}
{"id": "C101", "title": "Signals and ports are listed completely", "statement": "Listing the signals (or input ports) recursively returns exactly the accepted ones of the component and of every function block, channel and device reachable through entered ones, each once; without a filter the component's own visible ones.", "quantifier": "all trees of devices, io folders, channels and function blocks, all filters", "why_tests_cant": "trees are unbounded", "anchors": ["core/opendaq/device/include/opendaq/device_impl.h: getSignals, getSignalsRecursiveInternal, getChannels, getChannelsFromFolder, getDevices, getFunctionBlocks, getFunctionBlocksRecursive", "core/opendaq/functionblock/include/opendaq/function_block_impl.h: getSignals, getInputPorts, getFunctionBlocks", "core/opendaq/component/include/opendaq/component_impl.h: searchItems", "core/opendaq/component/include/opendaq/folder_impl.h: getItems"]}
{"id": "C102", "title": "Channels and devices are listed completely", "statement": "Listing channels or devices returns exactly the accepted ones of the device and, if recursive, of every device reachable through entered ones, each once; io folders that are entered are searched at any depth.", "quantifier": "all trees and all filters", "why_tests_cant": "trees are unbounded", "anchors": ["core/opendaq/device/include/opendaq/device_impl.h: getSignals, getSignalsRecursiveInternal, getChannels, getChannelsFromFolder, getDevices, getFunctionBlocks, getFunctionBlocksRecursive", "core/opendaq/functionblock/include/opendaq/function_block_impl.h: getSignals, getInputPorts, getFunctionBlocks", "core/opendaq/component/include/opendaq/component_impl.h: searchItems", "core/opendaq/component/include/opendaq/folder_impl.h: getItems"]}
{"id": "C103", "title": "Function blocks are listed completely", "statement": "Listing the function blocks recursively succeeds and returns exactly the accepted ones held by the component or by function blocks, channels and devices reachable through entered ones, each once.", "quantifier": "all trees and all filters", "why_tests_cant": "needs nested function blocks", "anchors": ["core/opendaq/device/include/opendaq/device_impl.h: getSignals, getSignalsRecursiveInternal, getChannels, getChannelsFromFolder, getDevices, getFunctionBlocks, getFunctionBlocksRecursive", "core/opendaq/functionblock/include/opendaq/function_block_impl.h: getSignals, getInputPorts, getFunctionBlocks", "core/opendaq/component/include/opendaq/component_impl.h: searchItems", "core/opendaq/component/include/opendaq/folder_impl.h: getItems"]}
{"id": "C104", "title": "No signal is missed", "statement": "In a tree where signals, function blocks, devices and channels are in the folders meant for them, a recursive listing with a filter that enters everything returns every accepted signal in the tree, the same ones a search of the whole tree returns.", "quantifier": "all such trees of any depth and all such filters", "why_tests_cant": "trees are unbounded", "anchors": ["core/opendaq/device/include/opendaq/device_impl.h: getSignals, getSignalsRecursiveInternal, getChannels, getChannelsFromFolder, getDevices, getFunctionBlocks, getFunctionBlocksRecursive", "core/opendaq/functionblock/include/opendaq/function_block_impl.h: getSignals, getInputPorts, getFunctionBlocks", "core/opendaq/component/include/opendaq/component_impl.h: searchItems", "core/opendaq/component/include/opendaq/folder_impl.h: getItems"]}
{"id": "C105", "title": "A server sends exactly what the client needs", "statement": "At any time the server of each streaming source of a client sends exactly the signals that it offers and that are needed: those that are connected, not switched off and have this source as the active one, and their domain signals. No request is sent for something that is not offered, is sent already, or is not being sent. This survives loss of the connection and signals that come and go.", "quantifier": "all numbers of signals and sources, all histories of adding, removing, connecting, disconnecting, choosing sources, offers, withdrawals, reconnections and destruction that keep the stated rules (distinguishable ids, requests that succeed, domain signals added and kept)", "why_tests_cant": "histories are unbounded and signals share domain signals", "anchors": ["core/opendaq/streaming/include/opendaq/streaming_impl.h: addSignals, removeSignals, removeAllSignals, subscribeSignal, unsubscribeSignal, detachRemovedSignal, addToAvailableSignals, removeFromAvailableSignals, remapAvailableSignal, remapUnavailableSignal, startReconnection, onPacket", "core/opendaq/streaming/include/opendaq/mirrored_signal_impl.h: addStreamingSource, removeStreamingSource, setActiveStreamingSource, deactivateStreaming, onListenedStatusChanged, setStreamed, removed, subscribeInternal, unsubscribeInternal", "core/opendaq/signal/include/opendaq/signal_impl.h: listenerConnectedInternal, listenerDisconnected, removed"]}
{"id": "C106", "title": "Calls that keep the rules succeed", "statement": "After any such history, connecting and disconnecting a signal, choosing one of its sources, giving up its source, switching it on and off, and removing all signals of a source succeed.", "quantifier": "the same histories, all calls", "why_tests_cant": "an error would come from a count that went wrong long before", "anchors": ["core/opendaq/streaming/include/opendaq/streaming_impl.h: addSignals, removeSignals, removeAllSignals, subscribeSignal, unsubscribeSignal, detachRemovedSignal, addToAvailableSignals, removeFromAvailableSignals, remapAvailableSignal, remapUnavailableSignal, startReconnection, onPacket", "core/opendaq/streaming/include/opendaq/mirrored_signal_impl.h: addStreamingSource, removeStreamingSource, setActiveStreamingSource, deactivateStreaming, onListenedStatusChanged, setStreamed, removed, subscribeInternal, unsubscribeInternal", "core/opendaq/signal/include/opendaq/signal_impl.h: listenerConnectedInternal, listenerDisconnected, removed"]}
{"id": "C107", "title": "A client recovers from errors", "statement": "The server sends exactly what is offered and needed also after requests that failed and after domain signals that were replaced or removed while in use.", "quantifier": "all histories", "why_tests_cant": "needs failures at the right moment", "anchors": ["core/opendaq/streaming/include/opendaq/streaming_impl.h: addSignals, removeSignals, removeAllSignals, subscribeSignal, unsubscribeSignal, detachRemovedSignal, addToAvailableSignals, removeFromAvailableSignals, remapAvailableSignal, remapUnavailableSignal, startReconnection, onPacket", "core/opendaq/streaming/include/opendaq/mirrored_signal_impl.h: addStreamingSource, removeStreamingSource, setActiveStreamingSource, deactivateStreaming, onListenedStatusChanged, setStreamed, removed, subscribeInternal, unsubscribeInternal", "core/opendaq/signal/include/opendaq/signal_impl.h: listenerConnectedInternal, listenerDisconnected, removed"]}
{"id": "C108", "title": "Data come only from the active source", "statement": "A signal passes on a packet only if it arrived at its active source while that is switched on and the signal is not switched off; every such packet for an id meant for the signal is passed on once, and by no other signal.", "quantifier": "all states and all calls; for arrival, all histories that keep the rules", "why_tests_cant": "the state depends on the whole history", "anchors": ["core/opendaq/streaming/include/opendaq/streaming_impl.h: addSignals, removeSignals, removeAllSignals, subscribeSignal, unsubscribeSignal, detachRemovedSignal, addToAvailableSignals, removeFromAvailableSignals, remapAvailableSignal, remapUnavailableSignal, startReconnection, onPacket", "core/opendaq/streaming/include/opendaq/mirrored_signal_impl.h: addStreamingSource, removeStreamingSource, setActiveStreamingSource, deactivateStreaming, onListenedStatusChanged, setStreamed, removed, subscribeInternal, unsubscribeInternal"]}
{"id": "C109", "title": "Listeners learn every new descriptor", "statement": "Every connection of a mirrored signal knows the descriptors that the server announced last for the signal.", "quantifier": "all histories of events, connections and disconnections", "why_tests_cant": "depends on the order of events of value and domain signals", "anchors": ["core/opendaq/streaming/include/opendaq/mirrored_signal_impl.h: onTriggerEvent, createDataDescriptorChangedEventPacket, setMirroredDataDescriptor", "core/opendaq/streaming/include/opendaq/streaming_impl.h: handleEventPacket"]}
{"id": "C110", "title": "A connected client shows what the server shows", "statement": "A client that shows the tree of the server shows it again after it has handled the events of any sequence of changes on the server: attributes, tags, statuses, property values (also those that handlers set or replace), properties and nested objects that come and go, components that come and go.", "quantifier": "all trees, all depths of nested objects, all histories of such changes, all behaviours of handlers, properties whose limits do not depend on others; for changes of values without further writes by handlers also properties whose limits depend on others", "why_tests_cant": "histories and trees are unbounded, one lost or misapplied event is enough to differ for ever", "anchors": ["core/coreobjects/include/coreobjects/property_object_impl.h: setPropertyValueInternal, clearPropertyValueInternal, callPropertyValueWrite, addProperty, removeProperty, endApplyUpdate, DeserializePropertyObject, DeserializePropertyValues", "shared/libraries/config_protocol/include/config_protocol/config_client_property_object_impl.h: handleRemoteCoreObjectInternal, propertyValueChanged, propertyObjectUpdateEnd, propertyAdded, propertyRemoved, updateProperties, updatePropertyValues", "shared/libraries/config_protocol/include/config_protocol/config_client_component_impl.h: attributeChanged, tagsChanged, statusChanged, componentUpdateEnd, onRemoteUpdate", "shared/libraries/config_protocol/include/config_protocol/config_client_folder_impl.h: componentAdded, componentRemoved, onRemoteUpdate"]}
{"id": "C111", "title": "A batch of writes reaches clients", "statement": "After a batch of writes and clears (`beginUpdate` … `endUpdate`) a client shows the values of the server.", "quantifier": "all batches, all objects", "why_tests_cant": "depends on handlers and on refused values", "anchors": ["core/coreobjects/include/coreobjects/property_object_impl.h: setPropertyValueInternal, clearPropertyValueInternal, callPropertyValueWrite, addProperty, removeProperty, endApplyUpdate, DeserializePropertyObject, DeserializePropertyValues", "shared/libraries/config_protocol/include/config_protocol/config_client_property_object_impl.h: propertyObjectUpdateEnd"]}
{"id": "C112", "title": "A connection gives the client the tree of the server", "statement": "A client that connects gets the tree as it is on the server, whatever changes are made meanwhile.", "quantifier": "all trees, all histories around the connection", "why_tests_cant": "depends on limits, coercers and on the moment of changes", "anchors": ["core/coreobjects/include/coreobjects/property_object_impl.h: setPropertyValueInternal, clearPropertyValueInternal, callPropertyValueWrite, addProperty, removeProperty, endApplyUpdate, DeserializePropertyObject, DeserializePropertyValues", "modules/native_streaming_client_module/src/native_device_impl.cpp: connectAndGetDevice, processConfigPacket"]}
{"id": "C113", "title": "An update or a reconnection brings the client up to date", "statement": "When a component was updated as a whole, or is sent again after a reconnection, the client shows it as it is on the server.", "quantifier": "all components before and after", "why_tests_cant": "structural differences at any depth", "anchors": ["shared/libraries/config_protocol/include/config_protocol/config_client_property_object_impl.h: handleRemoteCoreObjectInternal, propertyValueChanged, propertyObjectUpdateEnd, propertyAdded, propertyRemoved, updateProperties, updatePropertyValues", "shared/libraries/config_protocol/include/config_protocol/config_client_component_impl.h: attributeChanged, tagsChanged, statusChanged, componentUpdateEnd, onRemoteUpdate", "shared/libraries/config_protocol/include/config_protocol/config_client_folder_impl.h: componentAdded, componentRemoved, onRemoteUpdate"]}
{"id": "C114", "title": "Setting a property through a client sets that property", "statement": "Setting a property through a client, of a component or of an object nested at any depth in it, sets that property on the server; when the event has been handled, client and server show the value that the property made of it and agree on everything else. A refused value changes nothing on either side.", "quantifier": "all trees, all paths, all values", "why_tests_cant": "trees and depths are unbounded", "anchors": ["shared/libraries/config_protocol/include/config_protocol/config_client_property_object_impl.h: setPropertyValue, getFullPropName, propertyValueChanged", "core/coreobjects/include/coreobjects/property_object_impl.h: setPropertyValueInternal, clearPropertyValueInternal, callPropertyValueWrite, addProperty, removeProperty, endApplyUpdate, DeserializePropertyObject, DeserializePropertyValues"]}
{"id": "C115", "title": "Clearing and protected writes through a client", "statement": "Clearing a property through a client, and the protected calls, do on the server what they do on a local object, at any depth.", "quantifier": "all paths", "why_tests_cant": "depends on the depth of the object", "anchors": ["shared/libraries/config_protocol/include/config_protocol/config_client_property_object_impl.h: clearPropertyValue, setProtectedPropertyValue, clearProtectedPropertyValue, complete"]}
{"id": "C116", "title": "Statuses and attributes reach every client", "statement": "Every change of the statuses and attributes of a component reaches a client, whatever is locked there.", "quantifier": "all changes, all locks", "why_tests_cant": "needs statuses added late and locks on the client", "anchors": ["core/opendaq/component/include/opendaq/component_status_container_impl.h: addStatusWithMessage, setStatusWithMessage", "core/opendaq/component/include/opendaq/component_impl.h: setActive", "shared/libraries/config_protocol/include/config_protocol/config_client_component_impl.h: attributeChanged, statusChanged"]}
{"id": "C117", "title": "A type manager is a map from proper names to types", "statement": "After any calls every listed name is listed once, is an identifier that is not reserved (in any case of letters), and gives a type of that name. Adding a type with a free proper name appends exactly it; adding the same type again changes nothing; anything else is refused without a change. Removing takes away exactly the named type. Who listens from the beginning knows the types at any time.", "quantifier": "all histories of calls, all types, all names, callbacks that fail or not", "why_tests_cant": "histories are unbounded", "anchors": ["core/coretypes/src/type_manager_impl.cpp: addType, removeType, getType, getTypes, hasType, TypeManagerImpl::serialize, TypeManagerImpl::Deserialize", "core/coretypes/include/coretypes/ctutils.h: validateTypeName"]}
{"id": "C118", "title": "A new struct has the given values and defaults for the rest", "statement": "A struct of a registered type can be created exactly when the given names are fields and the given values have the core types of their fields (structs: the same type); it then has exactly the fields of its type with the given value, else the default, else null. A struct of a type that is not registered registers a type derived from the values, and creating it again gives the same struct. Failed creations leave the manager unchanged.", "quantifier": "all managers, types, dictionaries", "why_tests_cant": "types and dictionaries are unbounded and nest", "anchors": ["core/coretypes/include/coretypes/struct_impl.h: GenericStructImpl, equals, getFieldNames, getFieldValues, get", "core/coretypes/src/struct_type_impl.cpp: StructTypeImpl, equals", "core/coretypes/src/type_manager_impl.cpp: addType, removeType, getType, getTypes, hasType, TypeManagerImpl::serialize, TypeManagerImpl::Deserialize", "core/coretypes/include/coretypes/ctutils.h: validateTypeName"]}
{"id": "C119", "title": "Every field of a struct holds a value of its type, and creation leaves its arguments alone", "statement": "Every field of a struct holds null or a value of the type of the field, field names are distinct, and creating a struct does not change the dictionary of the caller.", "quantifier": "all types, all dictionaries", "why_tests_cant": "needs enumerations of other types, odd defaults, failed creations", "anchors": ["core/coretypes/include/coretypes/struct_impl.h: GenericStructImpl, equals, getFieldNames, getFieldValues, get", "core/coretypes/src/struct_type_impl.cpp: StructTypeImpl, equals"]}
{"id": "C120", "title": "Structs are equal exactly when type and fields are", "statement": "Comparing two structs tells whether they have the same type and the same value in each field, in whatever order the fields were given, and never fails.", "quantifier": "all pairs of structs and types, at all depths of nesting", "why_tests_cant": "depends on order and on null values at any depth", "anchors": ["core/coretypes/include/coretypes/struct_impl.h: GenericStructImpl, equals, getFieldNames, getFieldValues, get", "core/coretypes/src/struct_type_impl.cpp: StructTypeImpl, equals", "core/corecontainers/src/listobject_impl.cpp: equals", "core/corecontainers/src/dictobject_impl.cpp: equals"]}
{"id": "C121", "title": "A struct builder gives the last accepted value of each field", "statement": "After any calls of set, build gives a struct of the type with its fields in order, each with the last value that was set and is of the type of the field, else the default. What was built stays as it is, and a builder made from a struct gives an equal struct.", "quantifier": "all types, all histories of calls", "why_tests_cant": "histories are unbounded", "anchors": ["core/coretypes/src/struct_builder_impl.cpp: StructBuilderImpl, set, get, setFieldValues, build", "core/coretypes/include/coretypes/struct_impl.h: GenericStructImpl, equals, getFieldNames, getFieldValues, get", "core/coretypes/src/struct_type_impl.cpp: StructTypeImpl, equals"]}
{"id": "C122", "title": "A struct builder can set all fields, reset them and be used again", "statement": "Setting null gives the default value, setFieldValues sets all fields at once, a builder can be used after build, and takes every value that the constructor takes.", "quantifier": "all types and values", "why_tests_cant": "depends on types of fields and on the order of calls", "anchors": ["core/coretypes/src/struct_builder_impl.cpp: StructBuilderImpl, set, get, setFieldValues, build"]}
{"id": "C123", "title": "Names and numbers of an enumeration agree", "statement": "An enumeration type from a list of names numbers them upwards from the first value; it exists exactly when there are names, none is twice and the numbers fit. A value by name has the number of the name, the number gives the same value back, no other name or number gives a value. For a type from a dictionary a name gives a value with the number of the name, and a number a value with that number.", "quantifier": "all lists, dictionaries, first values", "why_tests_cant": "lists and numbers are unbounded", "anchors": ["core/coretypes/src/enumeration_type_impl.cpp: EnumerationTypeImpl", "core/coretypes/src/enumeration_impl.cpp: EnumerationImpl, getIntValue"]}
{"id": "C124", "title": "A type manager is read back as it was written", "statement": "A serialized type manager can be deserialized and has the same types.", "quantifier": "all managers", "why_tests_cant": "depends on nesting, reserved names and the order of changes", "anchors": ["core/coretypes/src/type_manager_impl.cpp: addType, removeType, getType, getTypes, hasType, TypeManagerImpl::serialize, TypeManagerImpl::Deserialize", "core/coretypes/include/coretypes/ctutils.h: validateTypeName", "core/coretypes/src/struct_type_impl.cpp: serialize, Deserialize"]}
{"id": "C125", "title": "A value of known types is read back as it was written", "statement": "A struct or enumeration, with structs nested at any depth, whose types the manager knows is deserialized to the same value, also when the manager has learned more types in the meantime, and reading it changes no type. Every value created with registered types is of this kind.", "quantifier": "all values of known types, all managers", "why_tests_cant": "values nest without bound", "anchors": ["core/coretypes/include/coretypes/struct_impl.h: serialize, Deserialize", "core/coretypes/src/enumeration_impl.cpp: serialize, Deserialize"]}
{"id": "C126", "title": "Every struct can be read back", "statement": "A serialized struct is read back as an equal struct, whatever happened to its type in the meantime.", "quantifier": "all structs, all managers", "why_tests_cant": "depends on removed types and odd defaults", "anchors": ["core/coretypes/include/coretypes/struct_impl.h: serialize, Deserialize, GenericStructImpl"]}
{"id": "C127", "title": "A class has the properties of its ancestors, and the nearest counts", "statement": "getProperty gives the property of the class itself, else of the nearest ancestor that has one of that name; hasProperty tells whether there is one. Adding other types later changes no answer.", "quantifier": "all managers, all classes with any number of ancestors, all names", "why_tests_cant": "chains are unbounded", "anchors": ["core/coreobjects/src/property_object_class_impl.cpp: getProperty, hasProperty", "core/coretypes/src/type_manager_impl.cpp: addType, removeType"]}
{"id": "C128", "title": "Ancestors of a class are there as long as it is", "statement": "Every class of a type manager has all its ancestors in the manager, in finite number, so every lookup ends.", "quantifier": "all histories of addType and removeType", "why_tests_cant": "depends on the order of changes", "anchors": ["core/coretypes/src/type_manager_impl.cpp: addType, removeType", "core/coreobjects/src/property_object_class_impl.cpp: getProperty"]}
{"id": "C129", "title": "Every property is listed once, in the order asked for", "statement": "getProperties lists each property of the class and its ancestors once, with the property that getProperty gives: first those of the custom order, then the rest from the oldest ancestor down. The same holds while a configuration is loaded.", "quantifier": "all chains of classes, all orders", "why_tests_cant": "chains and orders are unbounded", "anchors": ["core/coreobjects/src/property_object_class_impl.cpp: getProperties, getWithNormalOrder, getWithCustomOrder", "core/coreobjects/include/coreobjects/property_object_impl.h: getPropertiesInternal, updateInternal"]}
{"id": "C130", "title": "An object lists each property once, and the one it uses", "statement": "getAllProperties of an object of a class lists every property of the object and of its class once, in the order that is set, and what is listed for a name is what the object uses for it.", "quantifier": "all chains, all properties of the object, all orders", "why_tests_cant": "chains and orders are unbounded", "anchors": ["core/coreobjects/include/coreobjects/property_object_impl.h: getPropertiesInternal, getUnboundProperty"]}
{"id": "C131", "title": "A class builder gives the class that was asked for, and a clone is the same class", "statement": "After any calls, build gives a class with the last name, parent and order that were set and the properties that were added and not removed since, in the order of adding. A property is refused exactly if its name is there or it refers to what another one refers to, and refused calls change nothing. A clone has the same name, parent, properties and order.", "quantifier": "all histories of calls, all classes", "why_tests_cant": "histories are unbounded", "anchors": ["core/coreobjects/src/property_object_class_builder_impl.cpp: addProperty, removeProperty, hasDuplicateReferences, getProperties, build", "core/coreobjects/src/property_object_class_impl.cpp: clone"]}
{"id": "C132", "title": "No two reference properties of a class have a common target", "statement": "Of all properties of a class and its ancestors no two refer to the same property.", "quantifier": "all histories of builder calls", "why_tests_cant": "depends on the order of calls", "anchors": ["core/coreobjects/src/property_object_class_builder_impl.cpp: addProperty, removeProperty, hasDuplicateReferences, getProperties, build"]}
{"id": "C133", "title": "Classes are read back as they were written", "statement": "A serialized type manager with classes is read back with the same classes: the same answers to every lookup and the same lists of properties. A class that is there already can be read again.", "quantifier": "all managers", "why_tests_cant": "depends on orders, references and the order of types", "anchors": ["core/coreobjects/src/property_object_class_impl.cpp: serialize, Deserialize", "core/coretypes/src/type_manager_impl.cpp: addType, removeType"]}
{"id": "C134", "title": "Calls on streaming sources and mirrored signals do what their names say", "statement": "A call that succeeds changes exactly the connections, the switch, the active source or the list of sources it names, of the signals it names; a call that is ignored changes nothing. Added public signals have the source at the end of their lists, private ones are skipped. A source that is emptied or destroyed is in no list and active nowhere, and nothing else changes. A reconnection can be completed exactly once after each loss.", "quantifier": "all states, all calls; all histories that keep the rules for emptying and destroying a source", "why_tests_cant": "states and histories are unbounded", "anchors": ["core/opendaq/streaming/include/opendaq/streaming_impl.h: addSignals, removeSignals, removeAllSignals, completeReconnection", "core/opendaq/streaming/include/opendaq/mirrored_signal_impl.h: addStreamingSource, removeStreamingSource, setActiveStreamingSource, deactivateStreaming, setStreamed, removed", "core/opendaq/signal/include/opendaq/signal_impl.h: listenerConnectedInternal, listenerDisconnected"]}
{"id": "C135", "title": "A view-only client changes nothing", "statement": "Whatever a client that connected for viewing only asks a device for, the device makes no changing call for it, except calling a function whose property declares it constant; changing requests get an error. (The requests of C136 apart.)", "quantifier": "all components and their behaviour, all states, users, addresses and parameters", "why_tests_cant": "ranges over all requests and all devices behind the server", "anchors": ["shared/libraries/config_protocol/include/config_protocol/config_server_access_control.h: protectObject, protectLockedComponent, protectViewOnlyConnection, getFirstPropertyParent", "shared/libraries/config_protocol/include/config_protocol/config_server_component.h: ConfigServerComponent", "shared/libraries/config_protocol/include/config_protocol/config_server_device.h: ConfigServerDevice", "shared/libraries/config_protocol/include/config_protocol/config_server_input_port.h: ConfigServerInputPort", "shared/libraries/config_protocol/src/config_protocol_server.cpp: buildRpcDispatchStructure, callRpc, findComponent, connectSignal, connectExternalSignal, changeInputPortStreamingSource, removeExternalSignals, acceptsSignals"]}
{"id": "C136", "title": "View-only applies to every request", "statement": "A view-only client cannot change the operation mode of a device or the streaming source of an input port either.", "quantifier": "all components and their behaviour, all states, users, addresses and parameters", "why_tests_cant": "needs each of the requests with a view-only client", "anchors": ["shared/libraries/config_protocol/include/config_protocol/config_server_device.h: ConfigServerDevice", "shared/libraries/config_protocol/src/config_protocol_server.cpp: buildRpcDispatchStructure, callRpc, findComponent, connectSignal, connectExternalSignal, changeInputPortStreamingSource, removeExternalSignals, acceptsSignals"]}
{"id": "C137", "title": "A locked device is not changed", "statement": "A changing request about a component that belongs to a locked device is refused before anything is called, for every client and user, except the requests about the lock itself. A function that is not declared constant is not called. (The requests of C138 apart.)", "quantifier": "all components and their behaviour, all states, users, addresses and parameters", "why_tests_cant": "ranges over all requests and trees of components", "anchors": ["shared/libraries/config_protocol/include/config_protocol/config_server_access_control.h: protectObject, protectLockedComponent, protectViewOnlyConnection, getFirstPropertyParent", "shared/libraries/config_protocol/include/config_protocol/config_server_component.h: ConfigServerComponent", "shared/libraries/config_protocol/include/config_protocol/config_server_device.h: ConfigServerDevice", "shared/libraries/config_protocol/include/config_protocol/config_server_input_port.h: ConfigServerInputPort", "shared/libraries/config_protocol/src/config_protocol_server.cpp: buildRpcDispatchStructure, callRpc, findComponent, connectSignal, connectExternalSignal, changeInputPortStreamingSource, removeExternalSignals, acceptsSignals"]}
{"id": "C138", "title": "A lock keeps the operation mode, the streaming sources and the device itself", "statement": "While a device is locked its operation mode and streaming sources stay, and it is not removed.", "quantifier": "all components and their behaviour, all states, users, addresses and parameters", "why_tests_cant": "needs each of the requests with a locked device", "anchors": ["shared/libraries/config_protocol/include/config_protocol/config_server_access_control.h: protectObject, protectLockedComponent, protectViewOnlyConnection, getFirstPropertyParent", "shared/libraries/config_protocol/include/config_protocol/config_server_device.h: ConfigServerDevice", "shared/libraries/config_protocol/src/config_protocol_server.cpp: buildRpcDispatchStructure, callRpc, findComponent, connectSignal, connectExternalSignal, changeInputPortStreamingSource, removeExternalSignals, acceptsSignals"]}
{"id": "C139", "title": "Requests need the user's permissions", "statement": "A request about a component by a user without the permissions it needs on the component (and on the signal for connecting) is refused before anything is called. A property is set, cleared or called only for a user with the permissions on the object that holds it, at the time of the call, at any depth of nesting.", "quantifier": "all components and their behaviour, all states, users, addresses and parameters", "why_tests_cant": "permissions, nesting and states are unbounded; getters may run user code", "anchors": ["shared/libraries/config_protocol/include/config_protocol/config_server_access_control.h: protectObject, protectLockedComponent, protectViewOnlyConnection, getFirstPropertyParent", "shared/libraries/config_protocol/include/config_protocol/config_server_component.h: ConfigServerComponent", "shared/libraries/config_protocol/include/config_protocol/config_server_device.h: ConfigServerDevice", "shared/libraries/config_protocol/include/config_protocol/config_server_input_port.h: ConfigServerInputPort", "shared/libraries/config_protocol/src/config_protocol_server.cpp: buildRpcDispatchStructure, callRpc, findComponent, connectSignal, connectExternalSignal, changeInputPortStreamingSource, removeExternalSignals, acceptsSignals"]}
{"id": "C140", "title": "Every changed object was checked", "statement": "A request changes no object on which the user has no write permission, and a refused request changes nothing.", "quantifier": "all components and their behaviour, all states, users, addresses and parameters", "why_tests_cant": "needs nested objects with other permissions", "anchors": ["shared/libraries/config_protocol/include/config_protocol/config_server_component.h: ConfigServerComponent", "shared/libraries/config_protocol/include/config_protocol/config_server_device.h: ConfigServerDevice", "shared/libraries/config_protocol/src/config_protocol_server.cpp: buildRpcDispatchStructure, callRpc, findComponent, connectSignal, connectExternalSignal, changeInputPortStreamingSource, removeExternalSignals, acceptsSignals"]}
{"id": "C141", "title": "An allowed request does what the local call does", "statement": "A request that passes the checks makes exactly the call it stands for, in the state it found, and the reply is the result; requests that stand for several calls make them in order up to the first that fails.", "quantifier": "all components and their behaviour, all states, users, addresses and parameters", "why_tests_cant": "ranges over all requests and all behaviour of the components", "anchors": ["shared/libraries/config_protocol/include/config_protocol/config_server_component.h: ConfigServerComponent", "shared/libraries/config_protocol/include/config_protocol/config_server_device.h: ConfigServerDevice", "shared/libraries/config_protocol/include/config_protocol/config_server_input_port.h: ConfigServerInputPort", "shared/libraries/config_protocol/src/config_protocol_server.cpp: buildRpcDispatchStructure, callRpc, findComponent, connectSignal, connectExternalSignal, changeInputPortStreamingSource, removeExternalSignals, acceptsSignals"]}
{"id": "C142", "title": "Unreadable properties are not handed out", "statement": "The value, suggested values and selection values of a property go only to users who may read the object that holds it.", "quantifier": "all components and their behaviour, all states, users, addresses and parameters", "why_tests_cant": "permissions and nesting are unbounded", "anchors": ["shared/libraries/config_protocol/include/config_protocol/config_server_access_control.h: protectObject, protectLockedComponent, protectViewOnlyConnection, getFirstPropertyParent", "shared/libraries/config_protocol/include/config_protocol/config_server_component.h: ConfigServerComponent"]}
{"id": "C143", "title": "A refused request runs no user code", "statement": "Reading a property or calling a function without the permission is refused before the getter of the property runs.", "quantifier": "all components and their behaviour, all states, users, addresses and parameters", "why_tests_cant": "needs getters with effects", "anchors": ["shared/libraries/config_protocol/include/config_protocol/config_server_component.h: ConfigServerComponent"]}
{"id": "C144", "title": "All properties can be reached by all requests", "statement": "A property can be set and called through the server whatever its name, and a protected value arrives as it was sent.", "quantifier": "all components and their behaviour, all states, users, addresses and parameters", "why_tests_cant": "depends on names and kinds of values", "anchors": ["shared/libraries/config_protocol/include/config_protocol/config_server_component.h: ConfigServerComponent"]}
{"id": "C145", "title": "An address names one component", "statement": "An address is //root, or the local ids from the root device down, each after a slash, and names at most one component. A request with any other address, and an unknown request, is refused before anything is called.", "quantifier": "all trees of components, all addresses", "why_tests_cant": "addresses are unbounded", "anchors": ["shared/libraries/config_protocol/src/config_protocol_server.cpp: buildRpcDispatchStructure, callRpc, findComponent, connectSignal, connectExternalSignal, changeInputPortStreamingSource, removeExternalSignals, acceptsSignals", "core/opendaq/utility/include/opendaq/ids_parser.h: splitRelativeId"]}
{"id": "C146", "title": "Changes do what they say and nothing else", "statement": "A change of an attribute, tag, status, property, value or item of a component changes exactly that, triggers exactly its events, in order, and leaves every other component as it is. Locked attributes keep their values. What handlers set is set as by a user, and a batch of writes has the effect of the writes one after the other, up to the first that fails.", "quantifier": "all trees, components, nested objects, changes, handlers and histories", "why_tests_cant": "trees, nesting, handlers and histories are unbounded", "anchors": ["core/coreobjects/include/coreobjects/property_object_impl.h: setPropertyValueInternal, clearPropertyValueInternal, callPropertyValueWrite, addProperty, removeProperty, endApplyUpdate", "core/opendaq/component/include/opendaq/component_impl.h: setName, setDescription, setActive, setVisible, lockAttributes, unlockAttributes", "core/opendaq/component/include/opendaq/folder_impl.h: addItem, removeItem", "core/opendaq/component/include/opendaq/component_status_container_impl.h: ComponentStatusContainerImpl", "core/opendaq/component/include/opendaq/tags_impl.h: TagsImpl"]}
{"id": "C147", "title": "Events tell every change of a value, and the value", "statement": "After a property was set or cleared, whatever its handlers do, every property has the value that the last event about it carries, and its old value if there is no event about it.", "quantifier": "all property objects, values, handlers and writes", "why_tests_cant": "handlers are arbitrary and set other properties", "anchors": ["core/coreobjects/include/coreobjects/property_object_impl.h: setPropertyValueInternal, clearPropertyValueInternal, callPropertyValueWrite, addProperty, removeProperty, endApplyUpdate"]}
{"id": "C148", "title": "Limit of configuration connections", "statement": "Whatever clients send, there are never more configuration connections than MaxAllowedConfigConnections (if it is not 0), and a connected client is served as the kind of client (control, exclusive control, view only) it was when it was let in.", "quantifier": "all histories of connections, announcements, packets, streaming requests and losses of sessions, with fewer than 2^64 messages", "why_tests_cant": "histories and the number of clients are unbounded", "anchors": ["shared/libraries/native_streaming_protocol/src/native_streaming_server_handler.cpp: connectConfigProtocol, isConnectionLimitReached, setUpConfigProtocolCallbacks"]}
{"id": "C149", "title": "Exclusive control", "statement": "If clients announce themselves before they use the server, whoever has exclusive control is the only client that may change something. A client is let in unless the limit is reached, it wants control while a client has exclusive control, or it wants exclusive control while others have control and it does not drop others (or has reconnected). A client that drops others ends exactly the sessions with control, and view-only and streaming sessions stay.", "quantifier": "all histories of connections, announcements, packets, streaming requests and losses of sessions, with fewer than 2^64 messages, in which announcements come first", "why_tests_cant": "histories and the number of clients are unbounded", "anchors": ["shared/libraries/native_streaming_protocol/src/native_streaming_server_handler.cpp: connectConfigProtocol, isControlConnectionRejected, isExclusiveControlConnectionRejected, releaseOtherControlConnectionsInternal"]}
{"id": "C150", "title": "Control does not depend on what clients announce later", "statement": "Whatever a client announces, and whenever, exclusive control of another client stays exclusive, and who is let in depends only on the connections there are.", "quantifier": "all histories of connections, announcements, packets, streaming requests and losses of sessions, with fewer than 2^64 messages", "why_tests_cant": "histories and the number of clients are unbounded", "anchors": ["shared/libraries/native_streaming_protocol/src/native_streaming_server_handler.cpp: handleTransportLayerProps, incrementConfigConnectionCount, decrementConfigConnectionCount"]}
{"id": "C151", "title": "Who can end a session", "statement": "A session ends only if it is lost, if the same user reconnects, or if it may change something and a client that wants exclusive control and drops others comes. Every other session is as it was.", "quantifier": "all histories of connections, announcements, packets, streaming requests and losses of sessions, with fewer than 2^64 messages", "why_tests_cant": "histories and the number of clients are unbounded", "anchors": ["shared/libraries/native_streaming_protocol/src/native_streaming_server_handler.cpp: handleTransportLayerProps, releaseSessionHandlerInternal, releaseOtherControlConnectionsInternal"]}
{"id": "C152", "title": "List of connected clients", "statement": "If clients announce themselves before they use the server and each session uses one service, the device info lists exactly the sessions that use the server, each once, with service, kind of client and host.", "quantifier": "all histories of connections, announcements, packets, streaming requests and losses of sessions, with fewer than 2^64 messages, in which announcements come first and each session uses one service", "why_tests_cant": "histories and the number of clients are unbounded", "anchors": ["modules/native_streaming_server_module/src/native_streaming_server_impl.cpp: clientConnectedHandler, clientDisconnectedHandler", "core/opendaq/device/include/opendaq/device_info_impl.h: addConnectedClient, removeConnectedClient", "shared/libraries/native_streaming_protocol/src/native_streaming_server_handler.cpp: releaseSessionHandlerInternal"]}
{"id": "C153", "title": "List of connected clients, whatever clients send", "statement": "Whatever clients send, the device info lists exactly the sessions that use the server, and adding and removing entries never fails.", "quantifier": "all histories of connections, announcements, packets, streaming requests and losses of sessions, with fewer than 2^64 messages", "why_tests_cant": "histories and the number of clients are unbounded", "anchors": ["modules/native_streaming_server_module/src/native_streaming_server_impl.cpp: clientConnectedHandler, clientDisconnectedHandler", "core/opendaq/device/include/opendaq/device_info_impl.h: addConnectedClient, removeConnectedClient"]}
{"id": "C154", "title": "New signals reach the streaming clients", "statement": "A new signal is announced to exactly the sessions that stream.", "quantifier": "all histories of connections, announcements, packets, streaming requests and losses of sessions, with fewer than 2^64 messages", "why_tests_cant": "histories and the number of clients are unbounded", "anchors": ["shared/libraries/native_streaming_protocol/src/native_streaming_server_handler.cpp: addSignal, handleStreamingInit, releaseSessionHandlerInternal"]}
{"id": "C155", "title": "Every connection gets a session", "statement": "Every new connection gets a session with an id that no other session has.", "quantifier": "all histories of connections, announcements, packets, streaming requests and losses of sessions, with fewer than 2^64 messages", "why_tests_cant": "histories and the number of clients are unbounded", "anchors": ["shared/libraries/native_streaming_protocol/src/native_streaming_server_handler.cpp: initSessionHandler, handleTransportLayerProps"]}
{"id": "C156", "title": "Settings of streaming", "statement": "Every streaming client is served with the configured release threshold and size of cached payloads.", "quantifier": "all histories of connections, announcements, packets, streaming requests and losses of sessions, with fewer than 2^64 messages, all settings", "why_tests_cant": "histories and the number of clients are unbounded", "anchors": ["shared/libraries/native_streaming_protocol/src/native_streaming_server_handler.cpp: handleStreamingInit", "shared/libraries/native_streaming_protocol/src/streaming_manager.cpp: registerClient, unregisterClient"]}
{"id": "C157", "title": "No message is an exception for the server", "statement": "Whatever a client sends, no exception leaves the handlers of the server.", "quantifier": "all histories of connections, announcements, packets, streaming requests and losses of sessions, with fewer than 2^64 messages", "why_tests_cant": "histories and the number of clients are unbounded", "anchors": ["shared/libraries/native_streaming_protocol/src/native_streaming_server_handler.cpp: handleTransportLayerProps, handleStreamingInit, connectConfigProtocol", "shared/libraries/native_streaming_protocol/src/streaming_manager.cpp: registerClient, unregisterClient"]}
{"id": "C158", "title": "Notifications come in order", "statement": "What a client is told is at any time the beginning of the list of events it is to be told: in the order in which they were raised, each once, nothing else, nothing left out. It is to be told all events except those of its own external signals, streaming statuses, entries of connected clients (versions before 11), the effective active state where the client works it out, updates whose result cannot be serialised and events with a callable parameter.", "quantifier": "all interleavings of any number of threads that raise any events, calls of the client, external signals and changes of the version, as long as parameters can be sent in full and no external signal is refused", "why_tests_cant": "the number of threads, calls and events is unbounded, and interleavings cannot be forced by tests", "anchors": ["shared/libraries/config_protocol/src/config_protocol_server.cpp: coreEventCallback, isForwardedCoreEvent, packCoreEvent, SendOutCoreEvents"]}
{"id": "C159", "title": "Notifications are not left behind", "statement": "Whenever no call of the client is under way and no thread is in the callback, the client has been told everything. As long as events wait, there is a thread on the way to send them.", "quantifier": "all interleavings of any number of threads that raise any events, calls of the client, external signals and changes of the version", "why_tests_cant": "the number of threads, calls and events is unbounded, and interleavings cannot be forced by tests", "anchors": ["shared/libraries/config_protocol/src/config_protocol_server.cpp: coreEventCallback, RpcScopeTracker"]}
{"id": "C160", "title": "Notifications come before the reply", "statement": "When a call is replied to, the client has been told of every event that was raised in the call by the thread that serves it, whatever other threads and calls do meanwhile, for every version.", "quantifier": "all interleavings of any number of threads that raise any events, calls of the client, external signals and changes of the version with a fixed version", "why_tests_cant": "the number of threads, calls and events is unbounded, and interleavings cannot be forced by tests", "anchors": ["shared/libraries/config_protocol/src/config_protocol_server.cpp: processRpcAndGetReply, RpcScopeTracker, SendOutCoreEvents"]}
{"id": "C161", "title": "One notification per call", "statement": "From version 20 on, the events a call raises come in one notification that is followed by the reply, and no notification is sent if there is no event.", "quantifier": "all calls with any list of events, in any state without waiting events", "why_tests_cant": "the number of threads, calls and events is unbounded, and interleavings cannot be forced by tests", "anchors": ["shared/libraries/config_protocol/src/config_protocol_server.cpp: RpcScopeTracker, SendOutCoreEvents"]}
{"id": "C162", "title": "Events that cannot be sent do not affect others", "statement": "A client is told of every event that can be sent in full, whatever other events are raised meanwhile.", "quantifier": "all interleavings of any number of threads that raise any events, calls of the client, external signals and changes of the version", "why_tests_cant": "the number of threads, calls and events is unbounded, and interleavings cannot be forced by tests", "anchors": ["shared/libraries/config_protocol/src/config_protocol_server.cpp: sendNotification, packCoreEvent"]}
{"id": "C163", "title": "Events are subject to permissions", "statement": "A client is not told of changes of components that its user may not read.", "quantifier": "all interleavings of any number of threads that raise any events, calls of the client, external signals and changes of the version", "why_tests_cant": "the number of threads, calls and events is unbounded, and interleavings cannot be forced by tests", "anchors": ["shared/libraries/config_protocol/src/config_protocol_server.cpp: coreEventCallback"]}
{"id": "C164", "title": "Choice of the protocol version", "statement": "A client that asks for a version gets that version or an error; one that asks for the latest gets the highest version both know, or an error if there is none. After success client and server use the same version, which both support; after an error the server is as before.", "quantifier": "all sets of versions of client and server and all requests", "why_tests_cant": "the sets of versions change with every release on either side", "anchors": ["shared/libraries/config_protocol/include/config_protocol/config_protocol_client.h: protocolHandshake", "shared/libraries/config_protocol/src/config_protocol_server.cpp: processPacketAndGetReply"]}
{"id": "C165", "title": "A refused version has no effect", "statement": "A version that the server refuses changes nothing.", "quantifier": "all interleavings of any number of threads that raise any events, calls of the client, external signals and changes of the version", "why_tests_cant": "the number of threads, calls and events is unbounded, and interleavings cannot be forced by tests", "anchors": ["shared/libraries/config_protocol/src/config_protocol_server.cpp: processPacketAndGetReply, setProtocolVersion"]}
{"id": "C166", "title": "Events of external signals", "statement": "A client is told of external signals exactly if they are not its own.", "quantifier": "all interleavings of any number of threads that raise any events, calls of the client, external signals and changes of the version", "why_tests_cant": "the number of threads, calls and events is unbounded, and interleavings cannot be forced by tests", "anchors": ["shared/libraries/config_protocol/src/config_protocol_streaming_consumer.cpp: addExternalSignal, removeExternalSignals"]}
{"id": "C167", "title": "Saved values come back", "statement": "Loading the saved values of a property object into an object with the same properties makes every property, nested ones included, read what it read in the first, whatever was stored in the second. Loading again changes nothing.", "quantifier": "all property objects of any depth, any checks of values, any values stored in either, as long as the checks do not depend on properties further down", "why_tests_cant": "trees, documents and connections are of any size and shape, and what goes wrong depends on their combination", "anchors": ["core/coreobjects/include/coreobjects/property_object_impl.h: serializePropertyValues, updateInternal, updateObjectProperties, setPropertyFromSerialized"]}
{"id": "C168", "title": "What a successful load means", "statement": "When loading a document into a property object succeeds, every property named in it reads what its check made of the document's value, every other one is at its default, down to the nested objects; frozen ones are as they were.", "quantifier": "all property objects and all documents", "why_tests_cant": "trees, documents and connections are of any size and shape, and what goes wrong depends on their combination", "anchors": ["core/coreobjects/include/coreobjects/property_object_impl.h: updateObjectProperties, clearProtectedPropertyValue"]}
{"id": "C169", "title": "An object can load what it saved", "statement": "The values a property object holds can be loaded into a fresh one with the same properties.", "quantifier": "all property objects, any checks that may look at the other properties", "why_tests_cant": "trees, documents and connections are of any size and shape, and what goes wrong depends on their combination", "anchors": ["core/coreobjects/include/coreobjects/property_object_impl.h: updateObjectProperties, setPropertyFromSerialized"]}
{"id": "C170", "title": "The settings of a device come back", "statement": "Loading the configuration of a device into one of the same make, whatever function blocks had been added to it and whatever had been set, leaves the attributes, the values of properties, the signals' attributes and the function blocks, nested ones included, of the first device, and reports success.", "quantifier": "all devices with trees of function blocks of any size and depth, all types of function blocks that can be added", "why_tests_cant": "trees, documents and connections are of any size and shape, and what goes wrong depends on their combination", "anchors": ["core/opendaq/device/include/opendaq/device_impl.h: saveConfiguration, loadConfiguration", "core/opendaq/signal/include/opendaq/signal_container_impl.h: updateFunctionBlock, updateObject", "core/opendaq/component/include/opendaq/component_impl.h: updateObject"]}
{"id": "C171", "title": "The connections of a device come back", "statement": "Loading the configuration of a device into one of the same make and local identifier comes to an end and leaves exactly its connections, whatever the order in which function blocks and ports come in the document.", "quantifier": "all devices and all connections without a loop between ports and signals of the device, with no port of a built-in function block connected otherwise before", "why_tests_cant": "trees, documents and connections are of any size and shape, and what goes wrong depends on their combination", "anchors": ["core/opendaq/component/include/opendaq/component_update_context_impl.h: resolveSignalDependency, getSignal", "core/opendaq/functionblock/include/opendaq/function_block_impl.h: onUpdatableUpdateEnd", "core/opendaq/signal/include/opendaq/input_port_impl.h: onUpdatableUpdateEnd"]}
{"id": "C172", "title": "Loading replaces connections", "statement": "After loading, ports are connected as in the saved device, whatever they were connected to before.", "quantifier": "all devices and all connections before", "why_tests_cant": "trees, documents and connections are of any size and shape, and what goes wrong depends on their combination", "anchors": ["core/opendaq/signal/include/opendaq/input_port_impl.h: onUpdatableUpdateEnd"]}
{"id": "C173", "title": "Attributes of ports and tags come back", "statement": "The attributes of input ports and the tags of components, which are saved, are restored.", "quantifier": "all devices and documents", "why_tests_cant": "trees, documents and connections are of any size and shape, and what goes wrong depends on their combination", "anchors": ["core/opendaq/functionblock/include/opendaq/function_block_impl.h: updateInputPort", "core/opendaq/signal/include/opendaq/input_port_impl.h: updateObject", "core/opendaq/component/include/opendaq/component_impl.h: updateObject"]}
{"id": "C174", "title": "A load that fails changes nothing", "statement": "When a load fails, the device is as it was before.", "quantifier": "all devices and all documents", "why_tests_cant": "trees, documents and connections are of any size and shape, and what goes wrong depends on their combination", "anchors": ["core/opendaq/component/include/opendaq/component_impl.h: update", "core/opendaq/signal/include/opendaq/signal_container_impl.h: updateObject, updateFunctionBlock"]}
{"id": "C175", "title": "Loading comes to an end", "statement": "Loading comes to an end, whatever the document.", "quantifier": "all devices and all documents", "why_tests_cant": "trees, documents and connections are of any size and shape, and what goes wrong depends on their combination", "anchors": ["core/opendaq/component/include/opendaq/component_update_context_impl.h: resolveSignalDependency"]}
{"id": "C176", "title": "Loading leaves the user lock alone", "statement": "Loading a configuration neither locks nor unlocks a device, nor does it change who may unlock it.", "quantifier": "all devices and all documents", "why_tests_cant": "trees, documents and connections are of any size and shape, and what goes wrong depends on their combination", "anchors": ["core/opendaq/device/src/user_lock_impl.cpp: Deserialize", "core/opendaq/device/include/opendaq/device_impl.h: updateDevice, serializeForUpdate"]}
{"id": "C177", "title": "A configuration can be loaded into another device", "statement": "The configuration of a device can be loaded into one of the same make with another local identifier.", "quantifier": "all devices and all documents", "why_tests_cant": "trees, documents and connections are of any size and shape, and what goes wrong depends on their combination", "anchors": ["core/opendaq/component/include/opendaq/component_update_context_impl.h: getSignal"]}
{"id": "C178", "title": "Connections are made with the port they name", "statement": "Loading connects a port only to the signal the document names for it.", "quantifier": "all trees, contexts and orders of calls", "why_tests_cant": "trees, documents and connections are of any size and shape, and what goes wrong depends on their combination", "anchors": ["core/opendaq/functionblock/include/opendaq/function_block_impl.h: onUpdatableUpdateEnd"]}
{"id": "C179", "title": "What the document does not name is left alone", "statement": "A built-in function block the document does not name is, with all that is nested in it, as it was before a load, whether that succeeds or not.", "quantifier": "all devices and all documents; new function blocks get the identifier asked for", "why_tests_cant": "trees, documents and connections are of any size and shape, and what goes wrong depends on their combination", "anchors": ["core/opendaq/signal/include/opendaq/signal_container_impl.h: updateFunctionBlock, updateObject"]}
{"id": "C180", "title": "A sample takes the documented number of bytes", "statement": "The sample size a descriptor reports is the size of an element times the product of the sizes of its dimensions; for a record the sum over the fields times that product. The raw size is the same with the input type of post scaling, and zero if a rule computes the values.", "quantifier": "all descriptors: any sample type, any list of dimensions, any rules with any parameters, records nested to any depth, without empty dimensions, as long as the number of bytes fits 64 bits", "why_tests_cant": "the space of descriptors is a product of many options with unbounded lists and depth; tests try a few combinations", "anchors": ["core/opendaq/signal/src/data_descriptor_impl.cpp: calculateSampleMemSize", "core/opendaq/signal/src/dimension_impl.cpp: getSize", "core/opendaq/signal/include/opendaq/sample_type_traits.h: getSampleSize"]}
{"id": "C181", "title": "No descriptor reports a wrong sample size", "statement": "Whenever a descriptor could be built, the sample size it reports is the product the documentation gives.", "quantifier": "all descriptors: any sample type, any list of dimensions, any rules with any parameters, records nested to any depth", "why_tests_cant": "the space of descriptors is a product of many options with unbounded lists and depth; tests try a few combinations", "anchors": ["core/opendaq/signal/src/data_descriptor_impl.cpp: calculateSampleMemSize"]}
{"id": "C182", "title": "Exactly the described descriptors can be built", "statement": "A descriptor can be built exactly if the rules of its dimensions, its data rule and its post scaling have the parameters they need, all dimensions have a size, its fields could be built, and it is either a record (struct, named, explicit, no unit, scaling, range, resolution or origin) or consists of plain values for which scaling, computed rules and reference domains fit the sample type.", "quantifier": "all descriptors: any sample type, any list of dimensions, any rules with any parameters, records nested to any depth", "why_tests_cant": "the space of descriptors is a product of many options with unbounded lists and depth; tests try a few combinations", "anchors": ["core/opendaq/signal/src/data_descriptor_impl.cpp: validate, initCalcs", "core/opendaq/signal/src/data_rule_impl.cpp: verifyParametersInternal", "core/opendaq/signal/src/dimension_rule_impl.cpp: verifyParametersInternal", "core/opendaq/signal/src/scaling_impl.cpp: verifyParametersInternal"]}
{"id": "C183", "title": "Post scaling excludes what does not go with it", "statement": "Whenever a descriptor with post scaling was built, its sample type is the output type of the scaling, the input type is a real number type, the rule is explicit, there are no dimensions, and resolution, origin and reference domain are not configured.", "quantifier": "all descriptors: any sample type, any list of dimensions, any rules with any parameters, records nested to any depth", "why_tests_cant": "the space of descriptors is a product of many options with unbounded lists and depth; tests try a few combinations", "anchors": ["core/opendaq/signal/src/data_descriptor_impl.cpp: validate"]}
{"id": "C184", "title": "Records have only name and dimensions configured", "statement": "Whenever a descriptor with struct fields was built, nothing but its name and its dimensions is configured.", "quantifier": "all descriptors: any sample type, any list of dimensions, any rules with any parameters, records nested to any depth", "why_tests_cant": "the space of descriptors is a product of many options with unbounded lists and depth; tests try a few combinations", "anchors": ["core/opendaq/signal/src/data_descriptor_impl.cpp: validate"]}
{"id": "C185", "title": "Only integer values have a reference domain offset", "statement": "Whenever a descriptor of plain values with a reference domain offset other than zero was built, its sample type is an integer type.", "quantifier": "all descriptors: any sample type, any list of dimensions, any rules with any parameters, records nested to any depth", "why_tests_cant": "the space of descriptors is a product of many options with unbounded lists and depth; tests try a few combinations", "anchors": ["core/opendaq/signal/src/data_descriptor_impl.cpp: validate"]}
{"id": "C186", "title": "A built descriptor does not change", "statement": "Everything the getters of a descriptor show stays the same after it was built, whatever anybody does with the objects it was made from or the objects it returns.", "quantifier": "all descriptors: any sample type, any list of dimensions, any rules with any parameters, records nested to any depth; all sequences of changes of any list or dictionary that is not frozen, freezing and making new objects", "why_tests_cant": "the changes can be made at any time through any of the shared objects, at any depth", "anchors": ["core/opendaq/signal/src/data_descriptor_impl.cpp: validate", "core/opendaq/signal/src/scaling_impl.cpp: ScalingImpl", "core/opendaq/signal/src/dimension_rule_impl.cpp: DimensionRuleImpl", "core/opendaq/signal/src/data_rule_impl.cpp: verifyParametersInternal"]}
{"id": "C187", "title": "Descriptors are read back as they were written", "statement": "A descriptor that was built and serialised is deserialised as a descriptor that shows the same: all fields, absent ones absent, rules with the same parameters, struct fields to any depth.", "quantifier": "all descriptors: any sample type, any list of dimensions, any rules with any parameters, records nested to any depth", "why_tests_cant": "the space of descriptors is a product of many options with unbounded lists and depth; tests try a few combinations", "anchors": ["core/opendaq/signal/src/data_descriptor_impl.cpp: serialize, Deserialize", "core/opendaq/signal/src/dimension_impl.cpp: serialize, Deserialize", "core/opendaq/signal/src/dimension_rule_impl.cpp: serialize, Deserialize", "core/opendaq/signal/src/data_rule_impl.cpp: serialize, Deserialize", "core/opendaq/signal/src/scaling_impl.cpp: serialize, Deserialize", "core/opendaq/signal/src/reference_domain_info_impl.cpp: serialize, Deserialize"]}
{"id": "C188", "title": "Every descriptor can be written", "statement": "Every descriptor that could be built can be serialised.", "quantifier": "all descriptors: any sample type, any list of dimensions, any rules with any parameters, records nested to any depth", "why_tests_cant": "the space of descriptors is a product of many options with unbounded lists and depth; tests try a few combinations", "anchors": ["core/opendaq/signal/src/data_descriptor_impl.cpp: serialize"]}
{"id": "C189", "title": "A builder that starts from a descriptor builds the same", "statement": "A builder made from a descriptor builds a descriptor that shows the same and has the same sizes, and building it changes nothing anybody sees or may still change.", "quantifier": "all descriptors: any sample type, any list of dimensions, any rules with any parameters, records nested to any depth, at once or, if all parts are frozen, after any changes of the memory", "why_tests_cant": "depends on what was frozen and shared before, over all histories", "anchors": ["core/opendaq/signal/src/data_descriptor_builder_impl.cpp: DataDescriptorBuilderImpl, build"]}
{"id": "C190", "title": "Work scheduled on the main loop is run", "statement": "A work that does not ask for more runs at most once, nothing else runs, and everything that was scheduled before a call of `runMainLoopIteration` that finds no other call in progress has run when that call returns.", "quantifier": "all interleavings of scheduling from any thread, calls of `runMainLoop` and `runMainLoopIteration`, and the steps of the calls in progress; works that run once, ask for more any number of times, or stop the loop", "why_tests_cant": "the outcome depends on the interleaving of threads and on what works do while they run; tests fix one schedule", "anchors": ["core/opendaq/scheduler/src/scheduler_impl.cpp: MainThreadLoop::runIteration, scheduleTask, executeWork"]}
{"id": "C191", "title": "An iteration runs what was waiting", "statement": "`runMainLoopIteration` runs exactly the works that were waiting when it began, each once and in order. Works scheduled meanwhile, also by the works themselves, wait for the next iteration, and those that asked to be run again wait behind them, in order.", "quantifier": "all interleavings of scheduling from any thread, calls of `runMainLoop` and `runMainLoopIteration`, and the steps of the calls in progress; works that run once, ask for more any number of times, or stop the loop", "why_tests_cant": "the outcome depends on the interleaving of threads and on what works do while they run; tests fix one schedule", "anchors": ["core/opendaq/scheduler/src/scheduler_impl.cpp: MainThreadLoop::runIteration"]}
{"id": "C192", "title": "Works run in the order in which they were scheduled", "statement": "Whatever was scheduled before a work runs before that work runs for the first time.", "quantifier": "all interleavings of scheduling from any thread, calls of `runMainLoop` and `runMainLoopIteration`, and the steps of the calls in progress; works that run once, ask for more any number of times, or stop the loop", "why_tests_cant": "the outcome depends on the interleaving of threads and on what works do while they run; tests fix one schedule", "anchors": ["core/opendaq/scheduler/src/scheduler_impl.cpp: MainThreadLoop::runIteration, run"]}
{"id": "C193", "title": "One call runs works at a time", "statement": "`runMainLoop` and `runMainLoopIteration` are refused while another such call has not returned.", "quantifier": "all interleavings of scheduling from any thread, calls of `runMainLoop` and `runMainLoopIteration`, and the steps of the calls in progress; works that run once, ask for more any number of times, or stop the loop", "why_tests_cant": "the outcome depends on the interleaving of threads and on what works do while they run; tests fix one schedule", "anchors": ["core/opendaq/scheduler/src/scheduler_impl.cpp: MainThreadLoop::runIteration, run, stop"]}
{"id": "C194", "title": "Stopping the main loop", "statement": "`stopMainLoop` makes the running `runMainLoop` return after the iteration in which the stop is reached, `runMainLoop` does not return otherwise, and `stopMainLoop` has no effect on later calls.", "quantifier": "all interleavings of scheduling from any thread, calls of `runMainLoop` and `runMainLoopIteration`, and the steps of the calls in progress; works that run once, ask for more any number of times, or stop the loop", "why_tests_cant": "the outcome depends on the interleaving of threads and on what works do while they run; tests fix one schedule", "anchors": ["core/opendaq/scheduler/src/scheduler_impl.cpp: MainThreadLoop::stop, run"]}
{"id": "C195", "title": "An awaitable does not speak too early", "statement": "`wait` returns, and `hasCompleted` says yes, only when the execution is over.", "quantifier": "all sequences of calls on the awaitable of a function or of a graph, with the end of the execution anywhere in between", "why_tests_cant": "the calls can come in any order relative to the end of the execution", "anchors": ["core/opendaq/scheduler/src/awaitable_impl.cpp: wait, hasCompleted"]}
{"id": "C196", "title": "An awaitable says when the execution is over", "statement": "`hasCompleted` says yes when the execution is over.", "quantifier": "all sequences of calls on the awaitable of a function or of a graph, with the end of the execution anywhere in between", "why_tests_cant": "the calls can come in any order relative to the end of the execution", "anchors": ["core/opendaq/scheduler/src/awaitable_impl.cpp: hasCompleted"]}
{"id": "C197", "title": "The result of an awaitable", "statement": "`getResult` gives the value or the error of the execution, whenever it is asked for.", "quantifier": "all sequences of calls on the awaitable of a function or of a graph, with the end of the execution anywhere in between", "why_tests_cant": "the calls can come in any order and number", "anchors": ["core/opendaq/scheduler/src/awaitable_impl.cpp: getResult"]}
{"id": "C198", "title": "Tasks run once, in the order asked for", "statement": "In every execution of a graph each of its tasks runs at most once, after everything that was ordered before it, directly or not. When the execution is over, exactly those tasks have run that do not wait, directly or not, for a task that waits for itself.", "quantifier": "all graphs and tasks, all orders asked for between them, all choices of the thread pool", "why_tests_cant": "the number of graphs and of executions of one graph is unbounded", "anchors": ["core/opendaq/scheduler/src/task_impl.cpp: then, initialize", "core/opendaq/scheduler/src/task_graph_impl.cpp: then", "core/opendaq/scheduler/src/scheduler_impl.cpp: scheduleGraph"]}
{"id": "C199", "title": "Tasks can be ordered", "statement": "`then` between any two tasks, or between a graph and a task, succeeds, and both are run in the execution of one graph.", "quantifier": "all graphs and tasks, all orders asked for between them, all choices of the thread pool, all histories of making, ordering and releasing", "why_tests_cant": "depends on the history of both tasks and of their graphs", "anchors": ["core/opendaq/scheduler/src/task_impl.cpp: then, initialize", "core/opendaq/scheduler/src/task_graph_impl.cpp: then"]}
{"id": "C200", "title": "A stopped scheduler takes no work", "statement": "Once `stop` has returned, every attempt to schedule functions, works or graphs fails with `OPENDAQ_ERR_SCHEDULER_STOPPED`, and the calls of the main loop are not supported; before, nothing is refused for that reason.", "quantifier": "all states of the scheduler and all sequences of calls after the stop", "why_tests_cant": "for all later sequences of calls", "anchors": ["core/opendaq/scheduler/src/scheduler_impl.cpp: stop, checkAndPrepare, scheduleWork, scheduleWorkOnMainLoop"]}
{"id": "C201", "title": "Every call of the scheduler is defined", "statement": "No call of the scheduler is undefined behaviour, also after it was stopped or while its main loop runs.", "quantifier": "all states of the scheduler and all calls", "why_tests_cant": "crashes depend on the state in which the call is made", "anchors": ["core/opendaq/scheduler/src/scheduler_impl.cpp: stop, waitAll, isMultiThreaded"]}
{"id": "C202", "title": "Setting the operation mode of a device", "statement": "`setOperationMode` with a mode that the device offers changes exactly the device and the components that belong to it, calls the handler of each once and sends one event; a mode that is not offered is ignored.", "quantifier": "all trees in which devices are in the folders of sub-devices, of any size and depth, all modes, all choices of handlers that fail", "why_tests_cant": "the effect is on the whole tree, and trees are unbounded", "anchors": ["core/opendaq/device/include/opendaq/device_impl.h: setOperationMode", "core/opendaq/component/include/opendaq/folder_impl.h: updateOperationMode"]}
{"id": "C203", "title": "Setting the operation mode of a device and its sub-devices", "statement": "`setOperationModeRecursive` changes exactly the components that belong to the device, or a device below it, that offers the mode; devices that do not offer it are passed, not those below them; it succeeds if no handler fails.", "quantifier": "all trees in which devices are in the folders of sub-devices, of any size and depth, all modes, all choices of handlers that fail", "why_tests_cant": "the effect is on the whole tree, and trees are unbounded", "anchors": ["core/opendaq/device/include/opendaq/device_impl.h: setOperationModeRecursive"]}
{"id": "C204", "title": "The operation mode of a component", "statement": "`getOperationMode` of a component gives the mode of the closest device above it (or of itself); without one it gives none.", "quantifier": "all trees, all components", "why_tests_cant": "the effect is on the whole tree, and trees are unbounded", "anchors": ["core/opendaq/component/include/opendaq/component_impl.h: getOperationMode", "core/opendaq/device/include/opendaq/device_impl.h: getOperationMode"]}
{"id": "C205", "title": "Components know the mode of their device", "statement": "The handler of each component that belongs to a device was last called with the mode that the device reports, also if the component was added after the mode was set.", "quantifier": "all histories of creating, adding and removing components and of setting modes", "why_tests_cant": "depends on the order of adding and setting; histories are unbounded", "anchors": ["core/opendaq/device/include/opendaq/device_impl.h: setOperationMode, updateOperationMode, setAsRoot", "core/opendaq/component/include/opendaq/folder_impl.h: syncComponentOperationMode"]}
{"id": "C206", "title": "The modes a device can be in", "statement": "A device is in its default mode or in one that it offers, and its handler was last called with that mode, or it has never entered any; it enters its default mode when it is added below another device or becomes the root.", "quantifier": "all histories of creating, adding and removing components and of setting modes", "why_tests_cant": "histories are unbounded", "anchors": ["core/opendaq/device/include/opendaq/device_impl.h: updateOperationModeInternal, setOperationMode, setAsRoot"]}
{"id": "C207", "title": "Setting the mode is all or nothing", "statement": "When `setOperationMode` fails, the device and its components are in the mode they were in before.", "quantifier": "all trees in which devices are in the folders of sub-devices, of any size and depth, all modes, all choices of handlers that fail", "why_tests_cant": "depends on which handler in which tree fails", "anchors": ["core/opendaq/device/include/opendaq/device_impl.h: setOperationMode"]}
{"id": "C208", "title": "Sub-devices are left alone", "statement": "`setOperationMode` does not change the mode of any device below.", "quantifier": "all trees", "why_tests_cant": "depends on where in the tree devices are", "anchors": ["core/opendaq/device/include/opendaq/device_impl.h: setOperationMode, updateOperationMode"]}
{"id": "C209", "title": "A module file is loaded once", "statement": "No module file is loaded twice; loading it again is ignored and gives the module that is there; modules that were added stay, in order.", "quantifier": "all histories of adding and loading modules and of changing the authenticator, all contents of the disk", "why_tests_cant": "histories are unbounded", "anchors": ["core/opendaq/modulemanager/src/module_manager_impl.cpp: loadModules, loadModule, tryLoadAndAddModule"]}
{"id": "C210", "title": "Module ids are unique", "statement": "No two modules of the manager have the same non-empty id.", "quantifier": "all histories of adding and loading modules and of changing the authenticator, all contents of the disk", "why_tests_cant": "depends on the order of adding and loading", "anchors": ["core/opendaq/modulemanager/src/module_manager_impl.cpp: addModule, tryLoadAndAddModule"]}
{"id": "C211", "title": "Only authenticated modules", "statement": "While `setAuthenticatedOnly` is on, only modules that the authenticator accepted come in, and their vendor keys are kept.", "quantifier": "all histories of adding and loading modules and of changing the authenticator, all contents of the disk", "why_tests_cant": "ranges over authenticators, including such that fail", "anchors": ["core/opendaq/modulemanager/src/module_manager_impl.cpp: tryLoadAndAddModule, addModule", "core/opendaq/opendaq/include/opendaq/module_authenticator_impl.h: authenticateModuleBinary"]}
{"id": "C212", "title": "The generated local id is free", "statement": "The local id that `addFunctionBlock` generates is the id of the type, an underscore and a number, and no item of the folder has it; so local ids stay distinct.", "quantifier": "all type ids, all lists of local ids of items", "why_tests_cant": "texts and folders are unbounded", "anchors": ["core/opendaq/modulemanager/src/module_manager_impl.cpp: createFunctionBlock"]}
{"id": "C213", "title": "A local id can always be generated", "statement": "Generating a local id is defined for all items of the folder.", "quantifier": "all type ids, all lists of local ids of items", "why_tests_cant": "depends on the texts of all items", "anchors": ["core/opendaq/modulemanager/src/module_manager_impl.cpp: createFunctionBlock"]}
{"id": "C214", "title": "Function blocks are created by the first module that offers them", "statement": "`addFunctionBlock` asks exactly the first module that offers the type (old ids stand for new ones), whatever the others answer; if none offers it, it is not found.", "quantifier": "all lists of modules with any answers, failing ones included", "why_tests_cant": "ranges over all answers of all modules", "anchors": ["core/opendaq/modulemanager/src/module_manager_impl.cpp: createFunctionBlock, ConvertIfOldIdFB"]}
{"id": "C215", "title": "Devices and servers are created by the first module that offers them", "statement": "The same for devices (by the prefix of the connection string) and servers.", "quantifier": "all lists of modules with any answers, failing ones included", "why_tests_cant": "ranges over all answers of all modules", "anchors": ["core/opendaq/modulemanager/src/module_manager_impl.cpp: createDevice, getDeviceTypeFromConnectionString, createServer"]}
{"id": "C216", "title": "One streaming", "statement": "Creating a streaming creates one, through one module that offers the prefix; if none does, the call fails.", "quantifier": "all lists of modules with any answers, failing ones included", "why_tests_cant": "depends on the answers of several modules", "anchors": ["core/opendaq/modulemanager/src/module_manager_impl.cpp: onCreateStreaming"]}
{"id": "C217", "title": "Options of a connection string", "statement": "`pure?name=value&name=value` is split into the string and its options, the first of several with the same name; strings of no such form are refused.", "quantifier": "all texts", "why_tests_cant": "texts are unbounded", "anchors": ["core/opendaq/modulemanager/src/module_manager_impl.cpp: SplitConnectionStringAndOptions"]}
{"id": "C218", "title": "Which value a property of the configuration gets", "statement": "A property of the device type gets the value of the option of the connection string, else that of the configuration passed by the user, else its default; nothing is added.", "quantifier": "all configurations, all options", "why_tests_cant": "combines four sources of values", "anchors": ["core/opendaq/modulemanager/src/module_manager_impl.cpp: createDevice, PopulateDeviceTypeConfig, OverrideConfigProperties, CopyCommonGeneralPropValues"]}
{"id": "C219", "title": "General values do not overwrite those of the type", "statement": "In a configuration made from the default one, the general value is used where the user set nothing for the type.", "quantifier": "all configurations, all options", "why_tests_cant": "combines three sources of values", "anchors": ["core/opendaq/modulemanager/src/module_manager_impl.cpp: CopyCommonGeneralPropValues"]}
{"id": "C220", "title": "Discovered devices are grouped", "statement": "Devices with manufacturer, serial number and a capability are listed under one entry per smart connection string, with all protocols found, each once, and no others; the rest under their connection strings; hidden ones are not listed.", "quantifier": "all lists of devices found by all modules", "why_tests_cant": "lists and combinations are unbounded", "anchors": ["core/opendaq/modulemanager/src/module_manager_impl.cpp: getAvailableDevices"]}
{"id": "C221", "title": "Different devices are different entries", "statement": "Two devices with different manufacturers or serial numbers are not made one.", "quantifier": "all lists of devices found by all modules", "why_tests_cant": "ranges over all names", "anchors": ["core/opendaq/modulemanager/src/module_manager_impl.cpp: getAvailableDevices"]}
{"id": "C222", "title": "What a smart connection connects to", "statement": "The first of the best capabilities (native configuration, then configuration and streaming, configuration, streaming), and of its addresses of the wanted type the first reachable, else the first of unknown status, else the first; else its connection string.", "quantifier": "all devices, all statuses", "why_tests_cant": "ranges over all combinations of capabilities and addresses", "anchors": ["core/opendaq/modulemanager/src/module_manager_impl.cpp: resolveSmartConnectionString, getConnectionStringWithType, GetServerCapabilityPriority"]}
{"id": "C223", "title": "The first available address", "statement": "Without an address of the wanted type, the first available address is used.", "quantifier": "all lists of addresses", "why_tests_cant": "depends on the statuses of all addresses", "anchors": ["core/opendaq/modulemanager/src/module_manager_impl.cpp: setAddressesReachable, CreateGeneralConfig"]}
{"id": "C224", "title": "Adding several devices", "statement": "`addDevices` is successful if all were added, fails if none was, and is partly successful otherwise; each connection string has its device or error.", "quantifier": "all numbers of devices, all outcomes", "why_tests_cant": "outcomes of any number of devices", "anchors": ["core/opendaq/modulemanager/src/module_manager_impl.cpp: createDevices"]}
{"id": "C225", "title": "Capabilities of a connected device", "statement": "It has those that it names itself and those discovered; of one that is both, each property has the discovered value unless that is the default.", "quantifier": "all lists of capabilities and properties", "why_tests_cant": "merges unbounded lists", "anchors": ["core/opendaq/modulemanager/src/module_manager_impl.cpp: mergeDiscoveryAndDeviceCapabilities, MergeDiscoveryAndDeviceCapability"]}
{"id": "C226", "title": "Old protocol ids", "statement": "Devices that use old protocol ids can be added, and have the new ids afterwards.", "quantifier": "all lists of capabilities", "why_tests_cant": "depends on combinations of ids", "anchors": ["core/opendaq/modulemanager/src/module_manager_impl.cpp: ReplaceSubDeviceOldProtocolIds", "core/opendaq/device/include/opendaq/device_info_impl.h: addServerCapability"]}
{"id": "C227", "title": "Connection status events tell everything", "statement": "Whoever follows the \"connection status changed\" events of a device knows every status and every status message; the list of statuses and the single statuses agree; no two connections share a name; a refused change changes and tells nothing.", "quantifier": "all histories of adding, removing and updating statuses, with no status named \"Removed\"", "why_tests_cant": "histories are unbounded", "anchors": ["core/opendaq/device/include/opendaq/connection_status_container_impl.h: addConfigurationConnectionStatus, addStreamingConnectionStatus, removeStreamingConnectionStatus, updateConnectionStatusWithMessage, getStatuses"]}
{"id": "C228", "title": "The status of the configuration connection stays", "statement": "Once added, the status of the configuration connection is there, and it survives saving and loading.", "quantifier": "all histories of adding, removing and updating statuses", "why_tests_cant": "histories are unbounded", "anchors": ["core/opendaq/device/include/opendaq/connection_status_container_impl.h: addConfigurationConnectionStatus, removeStreamingConnectionStatus, serialize, Deserialize"]}
{"id": "C229", "title": "The status of a streaming is named after its type", "statement": "The name of the status of a streaming contains the id of the type of the streaming.", "quantifier": "all types of streaming and all connection strings", "why_tests_cant": "depends on the prefixes of the modules that are loaded", "anchors": ["core/opendaq/device/include/opendaq/connection_status_container_impl.h: getStreamingStatusNameAlias"]}
{"id": "C230", "title": "Streaming sources are listed with their current status", "statement": "Every streaming source of a device is listed with its current status; besides the configuration nothing else is listed; no two sources have the same connection string; adding and removing have exactly that effect.", "quantifier": "all histories of adding and removing sources and of changes of statuses", "why_tests_cant": "histories are unbounded", "anchors": ["core/opendaq/streaming/include/opendaq/mirrored_device_impl.h: addStreamingSource, removeStreamingSource", "core/opendaq/streaming/include/opendaq/streaming_impl.h: updateConnectionStatus"]}
{"id": "C231", "title": "A streaming source that is refused is not there", "statement": "When adding a streaming source fails, the sources are those of before.", "quantifier": "all devices and calls", "why_tests_cant": "depends on which part of the call fails", "anchors": ["core/opendaq/streaming/include/opendaq/mirrored_device_impl.h: addStreamingSource"]}
{"id": "C232", "title": "The listed status is current, whatever happens meanwhile", "statement": "The listed status of a source is its current one also if it changed while the source was added.", "quantifier": "all interleavings of adding a source and changes of its status", "why_tests_cant": "depends on the interleaving of threads", "anchors": ["core/opendaq/streaming/include/opendaq/mirrored_device_impl.h: addStreamingSource"]}
{"id": "C233", "title": "Streaming connections follow the list of preferred protocols", "statement": "New streaming sources are put after those there are, in the order of the preferred protocols; only allowed protocols are used, each capability without a protocol group is connected if a module can, no two sources have the same connection string, and doing it again changes nothing.", "quantifier": "all configurations, devices, and results of the modules", "why_tests_cant": "lists of capabilities and addresses are unbounded", "anchors": ["core/opendaq/streaming/include/opendaq/streaming_source_manager.h: attachStreamingsToDevice"]}
{"id": "C234", "title": "One streaming connection per protocol group", "statement": "No two streaming sources of a device are of one protocol group, also after any number of updates, and a new one is of the most preferred protocol of its group.", "quantifier": "all configurations, devices, and results of the modules, all numbers of updates", "why_tests_cant": "lists of capabilities and addresses are unbounded", "anchors": ["core/opendaq/streaming/include/opendaq/streaming_source_manager.h: attachStreamingsToDevice"]}
{"id": "C235", "title": "A protocol group is connected if it can be", "statement": "If a module can connect over any protocol of a group, the device gets a streaming of the group.", "quantifier": "all configurations, devices, and results of the modules", "why_tests_cant": "lists of capabilities and addresses are unbounded", "anchors": ["core/opendaq/streaming/include/opendaq/streaming_source_manager.h: attachStreamingsToDevice"]}
{"id": "C236", "title": "Streaming uses the wanted type of address", "statement": "The address of a streaming connection is one that discovery found, or else one of the capability; it is of the wanted type if there is one, and it is that of the configuration connection if that fits.", "quantifier": "all configurations, devices, and results of the modules", "why_tests_cant": "lists of capabilities and addresses are unbounded", "anchors": ["core/opendaq/streaming/include/opendaq/streaming_source_manager.h: findMatchingAddress, getDeviceConnectionAddress, buildDiscoveredStreamingAddrsByProtocol"]}
{"id": "C237", "title": "Streaming uses an address that answers", "statement": "If there is an address of the wanted type that answers, the streaming does not use one that is known not to answer.", "quantifier": "all configurations, devices, and results of the modules", "why_tests_cant": "lists of capabilities and addresses are unbounded", "anchors": ["core/opendaq/streaming/include/opendaq/streaming_source_manager.h: findMatchingAddress"]}
{"id": "C238", "title": "Added components are streamed", "statement": "When a component is added, every public signal and every input port below it can use all sources that it should, those of the closest device first; those that had an active source keep it; nothing else changes.", "quantifier": "all trees of components, both heuristics, all added components", "why_tests_cant": "trees are unbounded", "anchors": ["core/opendaq/streaming/include/opendaq/streaming_source_manager.h: componentAdded, enableStreamingForAddedComponent"]}
{"id": "C239", "title": "New signals of updated components are streamed", "statement": "When a component is updated, every public signal below it that has no sources gets those that it should use, those of the closest device first; signals with sources, private signals and ports are left alone.", "quantifier": "all trees of components, both heuristics, all updated components for which the call returns", "why_tests_cant": "trees are unbounded", "anchors": ["core/opendaq/streaming/include/opendaq/streaming_source_manager.h: componentUpdated, enableStreamingForUpdatedComponent"]}
{"id": "C240", "title": "Updated components are streamed as added ones are", "statement": "After an update of a component, all public signals and input ports below it have what they would have if they had been added.", "quantifier": "all trees of components, both heuristics, all updated components", "why_tests_cant": "trees are unbounded", "anchors": ["core/opendaq/streaming/include/opendaq/streaming_source_manager.h: componentUpdated, enableStreamingForUpdatedComponent"]}
{"id": "C241", "title": "A reference property stands for the property its expression yields", "statement": "Reading a reference property gives the value of the property that its expression yields, following further references; writing and clearing it give the result, call the handlers and change the state as if done on that property, and change nothing else.", "quantifier": "all definitions, objects, sequences of calls and values", "why_tests_cant": "sequences of calls, numbers of properties and lengths of chains of references are unbounded", "anchors": ["core/coreobjects/include/coreobjects/property_object_impl.h: checkForRefPropAndGetBoundProp, getPropertyAndValueInternal, setPropertyValueInternal, clearPropertyValueInternal", "core/coreobjects/src/eval_nodes.cpp: SwitchNode::getResult"]}
{"id": "C242", "title": "Access to reference properties ends", "statement": "Reading, writing and clearing a property always return.", "quantifier": "all definitions, objects, sequences of calls and values", "why_tests_cant": "sequences of calls, numbers of properties and lengths of chains of references are unbounded", "anchors": ["core/coreobjects/include/coreobjects/property_object_impl.h: checkForRefPropAndGetBoundProp, addProperty"]}
{"id": "C243", "title": "A property is referred to by at most one other", "statement": "No two properties of an object refer to the same existing property.", "quantifier": "all definitions, objects, sequences of calls and values", "why_tests_cant": "sequences of calls, numbers of properties and lengths of chains of references are unbounded", "anchors": ["core/coreobjects/include/coreobjects/property_object_impl.h: hasDuplicateReferences, checkForReferencesInternal, addProperty"]}
{"id": "C244", "title": "A property that is in no object can be added", "statement": "A refused addition has no effect, and a property that is in no object, because it was refused or removed, can be added to any object that has no property of its name.", "quantifier": "all definitions, objects, sequences of calls and values", "why_tests_cant": "sequences of calls, numbers of properties and lengths of chains of references are unbounded", "anchors": ["core/coreobjects/include/coreobjects/property_object_impl.h: addProperty, removeProperty", "core/coreobjects/include/coreobjects/property_impl.h: setOwner"]}
{"id": "C245", "title": "Handlers belong to the property", "statement": "A write that changes a value calls the handlers of the property's definition and then those that were registered for the property, in order, and no others.", "quantifier": "all definitions, objects, sequences of calls and values", "why_tests_cant": "sequences of calls, numbers of properties and lengths of chains of references are unbounded", "anchors": ["core/coreobjects/include/coreobjects/property_object_impl.h: addProperty, removeProperty, callPropertyValueWrite, getOnPropertyValueWrite"]}
{"id": "C246", "title": "A new property starts with its default value", "statement": "A property that was added reads as its default, also if a property of that name was set and removed before; after a removal neither property nor value is left and no other name is affected.", "quantifier": "all definitions, objects, sequences of calls and values", "why_tests_cant": "sequences of calls, numbers of properties and lengths of chains of references are unbounded", "anchors": ["core/coreobjects/include/coreobjects/property_object_impl.h: addProperty, removeProperty"]}
{"id": "C247", "title": "Calls on one property object do not change another", "statement": "No call on an object changes which properties another object has, their values, or the handlers called for them.", "quantifier": "all definitions, objects, sequences of calls and values", "why_tests_cant": "sequences of calls, numbers of properties and lengths of chains of references are unbounded", "anchors": ["core/coreobjects/include/coreobjects/property_object_impl.h: addProperty, removeProperty, setPropertyValueInternal, clearPropertyValueInternal, getOnPropertyValueWrite"]}
{"id": "C248", "title": "The definitions that are accepted", "statement": "A builder makes a property exactly if the definition is named, has a default where it needs one, and satisfies the rules for objects, limits, callable infos, references, selection and suggested values, containers and structures; the property has the fields given and the property type that follows from them, and every property obtained by building, loading or cloning satisfies the rules.", "quantifier": "all definitions, selection values, defaults and written values", "why_tests_cant": "definitions range over unbounded values, lists and dictionaries and all combinations of fields", "anchors": ["core/coreobjects/include/coreobjects/property_impl.h: validate, inferPropertyTypeFromMetadata", "core/coreobjects/src/property_builder_impl.cpp: build"]}
{"id": "C249", "title": "A reference property has nothing but its reference", "statement": "A property with a reference to another one has no value type, description, limits, unit or callable info of its own.", "quantifier": "all definitions, selection values, defaults and written values", "why_tests_cant": "definitions range over unbounded values, lists and dictionaries and all combinations of fields", "anchors": ["core/coreobjects/include/coreobjects/property_impl.h: validate"]}
{"id": "C250", "title": "The default value can be written", "statement": "The default value of a property can be written to it and is stored as it is.", "quantifier": "all definitions, selection values, defaults and written values", "why_tests_cant": "definitions range over unbounded values, lists and dictionaries and all combinations of fields", "anchors": ["core/coreobjects/include/coreobjects/property_impl.h: validate", "core/coreobjects/include/coreobjects/property_object_impl.h: setPropertyValueInternal"]}
{"id": "C251", "title": "The functions and the builders agree", "statement": "`IntProperty`, `SelectionProperty` and the other functions make the same property as the builders of the same name with the same arguments, with the fields that were given and no others, and fail for no value that has a default of a plain type.", "quantifier": "all definitions, selection values, defaults and written values", "why_tests_cant": "definitions range over unbounded values, lists and dictionaries and all combinations of fields", "anchors": ["core/coreobjects/include/coreobjects/property_impl.h: PropertyImpl", "core/coreobjects/src/property_builder_impl.cpp: IntPropertyBuilder"]}
{"id": "C252", "title": "A saved property loads as it was", "statement": "Every property that was saved can be loaded; without handlers for selection and suggested values it has the same fields and the same property type, and saving and loading it again gives the same property.", "quantifier": "all definitions, selection values, defaults and written values", "why_tests_cant": "definitions range over unbounded values, lists and dictionaries and all combinations of fields", "anchors": ["core/coreobjects/include/coreobjects/property_impl.h: serialize, Deserialize, ReadBuilderDeserializeValues"]}
{"id": "C253", "title": "Saving loses no selection or suggested values", "statement": "A property that was saved and loaded has the selection and suggested values it had, also if handlers are attached to them.", "quantifier": "all definitions, selection values, defaults and written values", "why_tests_cant": "definitions range over unbounded values, lists and dictionaries and all combinations of fields", "anchors": ["core/coreobjects/include/coreobjects/property_impl.h: serialize, ReadBuilderDeserializeValues"]}
{"id": "C254", "title": "A clone equals the property", "statement": "Every property can be cloned; the clone has the same fields and the same property type.", "quantifier": "all definitions, selection values, defaults and written values", "why_tests_cant": "definitions range over unbounded values, lists and dictionaries and all combinations of fields", "anchors": ["core/coreobjects/include/coreobjects/property_impl.h: clone"]}
{"id": "C255", "title": "The property type follows the selection values", "statement": "The property type of a property with selection values is that for the values it has now.", "quantifier": "all definitions, selection values, defaults and written values", "why_tests_cant": "definitions range over unbounded values, lists and dictionaries and all combinations of fields", "anchors": ["core/coreobjects/include/coreobjects/property_impl.h: getPropertyType, inferPropertyTypeFromMetadata"]}
{"id": "C256", "title": "Containers that are stored have items of the property's type", "statement": "A list or dictionary can be written exactly if its keys and items have the types that the property declares or that follow from its default.", "quantifier": "all definitions, selection values, defaults and written values", "why_tests_cant": "definitions range over unbounded values, lists and dictionaries and all combinations of fields", "anchors": ["core/coreobjects/include/coreobjects/property_object_impl.h: checkContainerType", "core/coreobjects/include/coreobjects/property_impl.h: getItemType, getKeyType"]}
{"id": "C257", "title": "Numbers that are stored are within the limits", "statement": "What is stored for a number is a number of the property's type within the limits, the written one if it is within them.", "quantifier": "all definitions, selection values, defaults and written values", "why_tests_cant": "definitions range over unbounded values, lists and dictionaries and all combinations of fields", "anchors": ["core/coreobjects/include/coreobjects/property_object_impl.h: coerceMinMax", "core/coretypes/include/coretypes/ordinalobject_impl.h: compareTo"]}
{"id": "C258", "title": "What is stored is one of the selection values", "statement": "What is stored for a property with selection values and without limits is an index, an item or a key of these values, as the property type says.", "quantifier": "all definitions, selection values, defaults and written values", "why_tests_cant": "definitions range over unbounded values, lists and dictionaries and all combinations of fields", "anchors": ["core/coreobjects/include/coreobjects/property_object_impl.h: checkSelectionValues"]}
{"id": "C259", "title": "Nothing changes during an update", "statement": "While every object of a tree is in an update or frozen, no sequence of sets, clears, begins and freezes changes any value, and sets and clears of objects that are not frozen are reported as done.", "quantifier": "all trees of objects, all values, defaults and validators, all sequences of calls", "why_tests_cant": "objects nest to any depth, and updates and calls interleave without bound", "anchors": ["core/coreobjects/include/coreobjects/property_object_impl.h: setPropertyValueInternal, clearPropertyValueInternal, beginUpdateInternal"]}
{"id": "C260", "title": "An update includes all objects inside", "statement": "After `beginUpdate` of an object, all objects inside are in one update more, until its end.", "quantifier": "all trees of objects, all values, defaults and validators, all sequences of calls", "why_tests_cant": "objects nest to any depth, and updates and calls interleave without bound", "anchors": ["core/coreobjects/include/coreobjects/property_object_impl.h: beginUpdateInternal", "core/opendaq/component/include/opendaq/folder_impl.h: beginUpdate"]}
{"id": "C261", "title": "An update has the effect of the calls made in it", "statement": "Calls that succeed without an update also succeed in an update of any object, the end of the update succeeds, and afterwards everything is as if the calls had been made without it.", "quantifier": "all trees of objects, all values, defaults and validators, all sequences of calls", "why_tests_cant": "objects nest to any depth, and updates and calls interleave without bound", "anchors": ["core/coreobjects/include/coreobjects/property_object_impl.h: endUpdateInternal, setPropertyValueInternal, clearPropertyValueInternal"]}
{"id": "C262", "title": "The end of an update leaves the update", "statement": "After `endUpdate`, the object and all objects inside are in one update less, and those in none have made the calls recorded for them.", "quantifier": "all trees of objects, all values, defaults and validators, all sequences of calls", "why_tests_cant": "objects nest to any depth, and updates and calls interleave without bound", "anchors": ["core/coreobjects/include/coreobjects/property_object_impl.h: endUpdateInternal", "core/opendaq/component/include/opendaq/folder_impl.h: endUpdate"]}
{"id": "C263", "title": "Clearing an object clears everything in it", "statement": "Clearing an object property resets all properties of the object and of the objects inside to their defaults and changes nothing else.", "quantifier": "all trees of objects, all values, defaults and validators, all sequences of calls", "why_tests_cant": "objects nest to any depth, and updates and calls interleave without bound", "anchors": ["core/coreobjects/include/coreobjects/property_object_impl.h: clearPropertyValueInternal"]}
{"id": "C264", "title": "Calls stay within their object", "statement": "No sequence of calls on some objects changes anything of an object that is neither one of these nor inside one.", "quantifier": "all trees of objects, all values, defaults and validators, all sequences of calls", "why_tests_cant": "objects nest to any depth, and updates and calls interleave without bound", "anchors": ["core/coreobjects/include/coreobjects/property_object_impl.h: setPropertyValueInternal, clearPropertyValueInternal, endUpdateInternal"]}
{"id": "C265", "title": "A set takes effect exactly if it is accepted", "statement": "A set that fails changes nothing, also through a dotted name. Without an update it succeeds exactly if the property exists, can be written and accepts the value; then the property has the accepted value and the others have theirs.", "quantifier": "all trees of objects, all values, defaults and validators, all sequences of calls", "why_tests_cant": "objects nest to any depth, and updates and calls interleave without bound", "anchors": ["core/coreobjects/include/coreobjects/property_object_impl.h: setPropertyValueInternal"]}
{"id": "C266", "title": "Configuration does not change types", "statement": "No configuration file, environment variable or argument changes the type of an option that exists and is not null, or removes one; neither does any number of providers.", "quantifier": "all options, documents, variables, arguments and lists of providers", "why_tests_cant": "options and documents nest to any depth, and texts and numbers of arguments are not bounded", "anchors": ["core/opendaq/opendaq/src/json_config_provider_impl.cpp: HandleObject, HandlePrimitive, HandleArray", "core/opendaq/opendaq/src/base_config_provider_impl.cpp: WriteValue, HandleOptionLeaf", "core/opendaq/opendaq/src/instance_builder_impl.cpp: getOptions"]}
{"id": "C267", "title": "A plain option has the last value of its type in a document", "statement": "After reading a document, an option that is a plain value has the last value of its type that the document gives at its place, and its old value if there is none. A document that cannot be read, or is no object, changes nothing.", "quantifier": "all options and documents whose integers at that place are below 2^63", "why_tests_cant": "options and documents nest to any depth, and texts and numbers of arguments are not bounded", "anchors": ["core/opendaq/opendaq/src/json_config_provider_impl.cpp: HandleObject, HandlePrimitive, populateOptions"]}
{"id": "C268", "title": "New options and lists are as in the document", "statement": "Options that did not exist, or were null, and lists become exactly what the document has.", "quantifier": "all options and documents", "why_tests_cant": "options and documents nest to any depth, and texts and numbers of arguments are not bounded", "anchors": ["core/opendaq/opendaq/src/json_config_provider_impl.cpp: HandleObject, HandleArray, HandleNumber"]}
{"id": "C269", "title": "Reading a document twice is reading it once", "statement": "Populating options with the same document again changes nothing.", "quantifier": "all options and documents with distinct names in each object and integers below 2^63", "why_tests_cant": "options and documents nest to any depth, and texts and numbers of arguments are not bounded", "anchors": ["core/opendaq/opendaq/src/json_config_provider_impl.cpp: populateOptions", "core/opendaq/opendaq/src/instance_builder_impl.cpp: getOptions"]}
{"id": "C270", "title": "A text for an option is read as a value of its type", "statement": "A variable or argument for an option that exists sets it to the value the text stands for if it is one of the type of the option, and is ignored otherwise; texts in quotes are strings.", "quantifier": "all options, paths and texts", "why_tests_cant": "options and documents nest to any depth, and texts and numbers of arguments are not bounded", "anchors": ["core/opendaq/opendaq/src/base_config_provider_impl.cpp: HandleOptionLeaf, TryConvertToBoolean, TryConvertToFloat, TryConvertToInteger"]}
{"id": "C271", "title": "A text for a new option becomes what it looks like", "statement": "A variable or argument for a new option makes it an integer, a float or a truth value if the text is one, and a string otherwise or if in quotes.", "quantifier": "all options, paths and texts", "why_tests_cant": "options and documents nest to any depth, and texts and numbers of arguments are not bounded", "anchors": ["core/opendaq/opendaq/src/base_config_provider_impl.cpp: HandleUnderfineValue, WriteValue"]}
{"id": "C272", "title": "Variables and arguments change only what they name", "statement": "An option that no variable or argument names is as it was.", "quantifier": "all options, variables and arguments", "why_tests_cant": "options and documents nest to any depth, and texts and numbers of arguments are not bounded", "anchors": ["core/opendaq/opendaq/src/base_config_provider_impl.cpp: WriteValue, SplitKey, GetValuesStartingWith"]}
{"id": "C273", "title": "The order of arguments does not matter", "statement": "Variables and arguments for different options have the same effect in any order.", "quantifier": "all options and permutations of arguments", "why_tests_cant": "options and documents nest to any depth, and texts and numbers of arguments are not bounded", "anchors": ["core/opendaq/opendaq/src/base_config_provider_impl.cpp: WriteValue, GetValuesStartingWith"]}
{"id": "C274", "title": "Exactly the variables for options are read", "statement": "A variable or argument is used if and only if it names an option, and every option can be named.", "quantifier": "all options, variables and arguments", "why_tests_cant": "options and documents nest to any depth, and texts and numbers of arguments are not bounded", "anchors": ["core/opendaq/opendaq/src/base_config_provider_impl.cpp: GetValuesStartingWith, SplitKey", "core/opendaq/opendaq/src/env_config_provider_impl.cpp: populateOptions"]}
{"id": "C275", "title": "The last setting of the builder counts", "statement": "Setting a value on the instance builder and adding a provider take effect in the order in which they are made.", "quantifier": "all builders, options and providers", "why_tests_cant": "options and documents nest to any depth, and texts and numbers of arguments are not bounded", "anchors": ["core/opendaq/opendaq/src/instance_builder_impl.cpp: getOptions, addConfigProvider, setSchedulerWorkerNum"]}
{"id": "C276", "title": "A value that is offered can be selected", "statement": "`setPropertySelectionValue` succeeds for a property that can be written exactly if the value is one of the selection values; then `getPropertySelectionValue` returns that value.", "quantifier": "all definitions, selection values, defaults and written values", "why_tests_cant": "definitions range over unbounded values, lists and dictionaries and all combinations of fields", "anchors": ["core/coreobjects/include/coreobjects/property_object_impl.h: setPropertySelectionValueInternal, getPropertySelectionValueInternal"]}
{"id": "C277", "title": "The selection can always be read", "statement": "`getPropertySelectionValue` of a property with selection values returns one of them.", "quantifier": "all definitions, selection values, defaults and written values", "why_tests_cant": "definitions range over unbounded values, lists and dictionaries and all combinations of fields", "anchors": ["core/coreobjects/include/coreobjects/property_object_impl.h: getPropertySelectionValueInternal, checkSelectionValues"]}
{"id": "C278", "title": "User name and location are those of the device", "statement": "After the information of a device was asked for, a changeable `userName` or `location` is the same read through the device and through its information after any calls; what is written through one is read through the other, and a value the information had before becomes the value of the device.", "quantifier": "all information objects, devices, values and sequences of calls", "why_tests_cant": "sequences of calls on two objects, names and values are unbounded", "anchors": ["core/opendaq/device/include/opendaq/device_info_impl.h: getOwnerOfProperty, setOwner, getPropertyValueNoLock, setPropertyValueNoLock", "core/opendaq/device/include/opendaq/device_impl.h: getInfo"]}
{"id": "C279", "title": "Clearing a field restores its default", "statement": "Clearing a field of device information that can be changed makes it read as its default value.", "quantifier": "all information objects, devices, values and sequences of calls", "why_tests_cant": "sequences of calls on two objects, names and values are unbounded", "anchors": ["core/opendaq/device/include/opendaq/device_info_impl.h: getPropertyValueNoLock, setPropertyValueNoLock"]}
{"id": "C280", "title": "Restoring restores user name and location", "statement": "Restoring a saved configuration gives a device the user name and location it had when it was saved.", "quantifier": "all information objects, devices, values and sequences of calls", "why_tests_cant": "sequences of calls on two objects, names and values are unbounded", "anchors": ["core/opendaq/device/include/opendaq/device_info_impl.h: serializePropertyValue, updateInternal", "core/opendaq/device/include/opendaq/device_impl.h: updateDevice"]}
{"id": "C281", "title": "Restoring restores the fields", "statement": "Restoring a saved configuration gives the information of a device the values its changeable fields had when it was saved.", "quantifier": "all information objects, devices, values and sequences of calls", "why_tests_cant": "sequences of calls on two objects, names and values are unbounded", "anchors": ["core/opendaq/device/include/opendaq/device_info_impl.h: serializePropertyValue, updateInternal"]}
{"id": "C282", "title": "Who can set fields", "statement": "Every field can be set before the information belongs to a device; afterwards exactly the changeable ones can, the others are refused with access denied and nothing changes.", "quantifier": "all information objects, devices, values and sequences of calls", "why_tests_cant": "sequences of calls on two objects, names and values are unbounded", "anchors": ["core/opendaq/device/include/opendaq/device_info_impl.h: setValueInternal, setPropertyValueNoLock"]}
{"id": "C283", "title": "Named fields are changeable", "statement": "A standard field of device information is changeable exactly if it was named when the information was created, in capital or small letters.", "quantifier": "all information objects, devices, values and sequences of calls", "why_tests_cant": "sequences of calls on two objects, names and values are unbounded", "anchors": ["core/opendaq/device/include/opendaq/device_info_impl.h: DeviceInfoConfigImpl, isPropertyChangeable"]}
{"id": "C284", "title": "The name is the name of the device", "statement": "The name in the information of a device is the name of the device.", "quantifier": "all information objects, devices, values and sequences of calls", "why_tests_cant": "sequences of calls on two objects, names and values are unbounded", "anchors": ["core/opendaq/device/include/opendaq/device_info_impl.h: setName", "core/opendaq/device/include/opendaq/device_impl.h: setName"]}
{"id": "C285", "title": "Custom properties", "statement": "The custom properties of device information are those that were added, each once, and all are truth values, numbers or texts.", "quantifier": "all information objects, devices, values and sequences of calls", "why_tests_cant": "sequences of calls on two objects, names and values are unbounded", "anchors": ["core/opendaq/device/include/opendaq/device_info_impl.h: addProperty, getCustomInfoPropertyNames"]}
{"id": "C286", "title": "Capabilities by protocol", "statement": "A device has a server capability exactly if one with the protocol is listed, which is the one it returns; protocols are distinct, one can be added exactly if its protocol is not listed.", "quantifier": "all information objects, devices, values and sequences of calls", "why_tests_cant": "sequences of calls on two objects, names and values are unbounded", "anchors": ["core/opendaq/device/include/opendaq/device_info_impl.h: addServerCapability, hasServerCapability, getServerCapability, getServerCapabilities"]}
{"id": "C287", "title": "Connection strings", "statement": "Each connection string added to or set for a server capability is listed once; the primary one is the one set last or else the first.", "quantifier": "all information objects, devices, values and sequences of calls", "why_tests_cant": "sequences of calls on two objects, names and values are unbounded", "anchors": ["core/opendaq/device/include/opendaq/server_capability_impl.h: addConnectionString, setConnectionString"]}
{"id": "C288", "title": "Addresses", "statement": "All different addresses added to a server capability are listed, in order.", "quantifier": "all information objects, devices, values and sequences of calls", "why_tests_cant": "sequences of calls on two objects, names and values are unbounded", "anchors": ["core/opendaq/device/include/opendaq/server_capability_impl.h: addAddressInfo, getAddressInfo"]}
{"id": "C289", "title": "Numbers of clients", "statement": "A client that registers without a number gets one nobody had before; one that registers with its former number keeps it unless somebody is registered with it; the list has those who registered and did not unregister.", "quantifier": "all information objects, devices, values and sequences of calls", "why_tests_cant": "sequences of calls on two objects, names and values are unbounded", "anchors": ["core/opendaq/device/include/opendaq/device_info_impl.h: addConnectedClient, removeConnectedClient"]}
{"id": "C290", "title": "Clients can always register", "statement": "A client that registers without a number succeeds, also after the information was read from a document.", "quantifier": "all information objects, devices, values and sequences of calls", "why_tests_cant": "sequences of calls on two objects, names and values are unbounded", "anchors": ["core/opendaq/device/include/opendaq/device_info_impl.h: addConnectedClient, deserializeImpl"]}
{"id": "C291", "title": "Clients of the native server", "statement": "With clients that connect when they are not connected, the device lists exactly the connected ones in order; each has one number forever that nobody else has.", "quantifier": "all sequences of clients connecting and disconnecting", "why_tests_cant": "sequences of calls on two objects, names and values are unbounded", "anchors": ["modules/native_streaming_server_module/src/native_streaming_server_impl.cpp: clientConnectedHandler, clientDisconnectedHandler"]}
{"id": "C292", "title": "Clients that left are not listed", "statement": "After a client disconnected from the native streaming server the device does not list it.", "quantifier": "all sequences of clients connecting and disconnecting", "why_tests_cant": "sequences of calls on two objects, names and values are unbounded", "anchors": ["modules/native_streaming_server_module/src/native_streaming_server_impl.cpp: clientConnectedHandler, clientDisconnectedHandler"]}
{"id": "C293", "title": "Network interfaces", "statement": "Network interfaces have names, and the one added first with a name stays.", "quantifier": "all information objects, devices, values and sequences of calls", "why_tests_cant": "sequences of calls on two objects, names and values are unbounded", "anchors": ["core/opendaq/device/include/opendaq/device_info_impl.h: addNetworkInteface, getNetworkInterfaces"]}
{"id": "C294", "title": "Update modes", "statement": "Loading a configuration that replaces no device leaves skipped devices as they are, removes those to be removed unless they are fixed, gives the others the saved configuration, adds exactly the missing ones that are to be loaded, by the connection string of the discovered device with the saved manufacturer and serial number or else the saved one, and keeps devices that are not described unless unused ones are removed. Devices that are added have the local id they were saved with.", "quantifier": "all configurations, device trees of any depth, update options and discovered devices", "why_tests_cant": "document, device tree and options are unbounded trees", "anchors": ["core/opendaq/device/include/opendaq/device_impl.h: updateObject, updateDevice, removeDeviceIfNotStatic"]}
{"id": "C295", "title": "Options apply to their device", "statement": "The update mode set for a device in the update options is used for that device and no other.", "quantifier": "all configurations, device trees of any depth, update options and discovered devices", "why_tests_cant": "document, device tree and options are unbounded trees", "anchors": ["core/opendaq/component/include/opendaq/component_update_context_impl.h: recurseDeviceUpdateOptions, getDeviceUpdateOptionsWithLocalIdOrNull", "core/opendaq/utility/src/device_update_options_impl.cpp: setUpdateMode"]}
{"id": "C296", "title": "Unused devices are removed", "statement": "If unused devices are to be removed, devices that the configuration does not describe are not there after loading, unless they are fixed or replace others.", "quantifier": "all configurations, device trees of any depth, update options and discovered devices", "why_tests_cant": "document, device tree and options are unbounded trees", "anchors": ["core/opendaq/device/include/opendaq/device_impl.h: updateObject"]}
{"id": "C297", "title": "Connections follow replaced devices", "statement": "After devices were replaced a saved connection to a signal of a replaced device leads to the signal at the same place in the replacing one, and other connections are as saved.", "quantifier": "all global ids and replacements", "why_tests_cant": "document, device tree and options are unbounded trees", "anchors": ["core/opendaq/component/include/opendaq/component_update_context_impl.h: remapDeviceLocalIds, remapInputPortConnections", "core/opendaq/device/include/opendaq/device_impl.h: updateDevice"]}
{"id": "C298", "title": "Manufacturer and serial number come first", "statement": "A device that is to be replaced by one with manufacturer, serial number and connection string is replaced by the connected one with the manufacturer and serial number, if there is one, or else by the one with the connection string.", "quantifier": "all configurations, device trees of any depth, update options and discovered devices", "why_tests_cant": "document, device tree and options are unbounded trees", "anchors": ["core/opendaq/device/include/opendaq/device_impl.h: findConnectedDeviceForRemap"]}
{"id": "C299", "title": "Replaced devices", "statement": "After loading each device that was to be replaced is not there, the chosen one is, with the configuration of the replaced one, and the replacement is noted for connections. This includes devices that are swapped.", "quantifier": "all configurations, device trees of any depth, update options and discovered devices", "why_tests_cant": "document, device tree and options are unbounded trees", "anchors": ["core/opendaq/device/include/opendaq/device_impl.h: updateObject, updateDevice, removeRemappedDevices"]}
{"id": "C300", "title": "The order of devices does not matter", "statement": "Loading two configurations that list the same devices in different order gives the same devices.", "quantifier": "all configurations, device trees of any depth, update options and discovered devices", "why_tests_cant": "document, device tree and options are unbounded trees", "anchors": ["core/opendaq/device/include/opendaq/device_impl.h: updateObject, updateDevice"]}
{"id": "C301", "title": "Update options can be saved", "statement": "The update options of a configuration have exactly its devices, with what identifies them; saved options are the same when they are read; what identifies the replacing device can be set for all but the root.", "quantifier": "all configurations, device trees of any depth, update options and discovered devices", "why_tests_cant": "document, device tree and options are unbounded trees", "anchors": ["core/opendaq/utility/src/device_update_options_impl.cpp: serialize, Deserialize, readDevice, readFolder, setNewManufacturer, setNewSerialNumber, setNewConnectionString"]}
{"id": "C302", "title": "Error guards are isolated", "statement": "After an error guard is released the errors that were pending before it was created are pending again in the same scopes, whatever was recorded, passed on, read or cleared while it was held, with any nesting of further guards. A new guard starts without errors.", "quantifier": "all sequences of guards created and released in any order, errors recorded, passed on, read and cleared", "why_tests_cant": "scopes, pending errors and chains of errors are unbounded, and what is seen depends on everything done before", "anchors": ["core/coretypes/src/errorinfo_impl.cpp: ErrorGuardImpl, ErrorInfoHolder::setScopeEntry, removeScopeEntry, getErrorInfoList, clearErrorInfo"]}
{"id": "C303", "title": "The recorded error is read", "statement": "An error that was just recorded is the one that is read: with its code, its message, and last in the list, after the errors pending before.", "quantifier": "all sequences of guards created and released in any order, errors recorded, passed on, read and cleared", "why_tests_cant": "scopes, pending errors and chains of errors are unbounded, and what is seen depends on everything done before", "anchors": ["core/coretypes/src/errorinfo_impl.cpp: ErrorGuardImpl::getLastErrorInfo, getErrorInfoList, setErrorInfo"]}
{"id": "C304", "title": "Clearing takes the last error", "statement": "Clearing takes away the last error together with all errors raised from it, returns the code of the original one, leaves the errors pending before as they were, and leaves no scope behind if there was none.", "quantifier": "all sequences of guards created and released in any order, errors recorded, passed on, read and cleared", "why_tests_cant": "scopes, pending errors and chains of errors are unbounded, and what is seen depends on everything done before", "anchors": ["core/coretypes/src/errorinfo_impl.cpp: ErrorGuardImpl::clearLastErrorInfo, ErrorInfoHolder::clearErrorInfo, removeInitialGuard"]}
{"id": "C305", "title": "Exceptions cross interfaces unchanged", "statement": "In a release build an exception with an error code that leaves a component through an interface reaches the caller's wrapper as an exception with the same code and the same message, and leaves the pending errors as they were.", "quantifier": "all codes, messages and pending errors", "why_tests_cant": "texts are unbounded; tests use messages without special characters", "anchors": ["core/coretypes/include/coretypes/ctutils.h: errorFromException, checkErrorInfo, getErrorInfoMessage", "core/coretypes/include/coretypes/bb_exception.h: DaqException", "core/coretypes/include/coretypes/error_code_to_exception.h: GenericExceptionFactory::throwException"]}
{"id": "C306", "title": "No message of another error", "statement": "A failing code whose error was not recorded is reported with the default message of the code, and leaves the pending errors as they were.", "quantifier": "all codes and pending errors", "why_tests_cant": "scopes, pending errors and chains of errors are unbounded, and what is seen depends on everything done before", "anchors": ["core/coretypes/include/coretypes/ctutils.h: checkErrorInfo, getErrorInfoMessage"]}
{"id": "C307", "title": "Recorded errors do not change", "statement": "A recorded error information refuses every change, and its text is the same each time it is read.", "quantifier": "all error informations and changes", "why_tests_cant": "all field values", "anchors": ["core/coretypes/src/errorinfo_impl.cpp: ErrorInfoImpl::setMessage, setSource, setFileName, setFileLine, setErrorCode, setPreviousErrorCode, getFormattedMessage, freeze"]}
{"id": "C308", "title": "The text shows the message", "statement": "The text of an error information that is not frozen shows the message set last.", "quantifier": "all error informations and messages", "why_tests_cant": "depends on the calls made before", "anchors": ["core/coretypes/src/errorinfo_impl.cpp: ErrorInfoImpl::getFormattedMessage, setMessage"]}
{"id": "C309", "title": "Error information can be saved", "statement": "An error information that is saved and loaded has the same message, source, file, line and codes.", "quantifier": "all error informations", "why_tests_cant": "all field values", "anchors": ["core/coretypes/src/errorinfo_impl.cpp: ErrorInfoImpl::serialize, Deserialize"]}
{"id": "C310", "title": "Failing codes are handed on", "statement": "A function that hands on the failing code of another one returns that code to its caller, with the error still recorded.", "quantifier": "all codes, messages and pending errors, debug and release builds", "why_tests_cant": "depends on what the callee recorded, and on the build", "anchors": ["core/coretypes/include/coretypes/ctutils.h: OPENDAQ_RETURN_IF_FAILED, extendErrorInfo", "core/coretypes/src/errorinfo_impl.cpp: ErrorGuardImpl::extendErrorInfo"]}
{"id": "C311", "title": "The newest message is shown", "statement": "In a release build an error passed on under its code any number of times is shown with the newest message given on the way, or the default message of its code; an error raised under another code without message is shown with the default message of its own code.", "quantifier": "all sequences of guards created and released in any order, errors recorded, passed on, read and cleared", "why_tests_cant": "scopes, pending errors and chains of errors are unbounded, and what is seen depends on everything done before", "anchors": ["core/coretypes/src/errorinfo_impl.cpp: ErrorGuardImpl::getFormattedMessage", "core/coretypes/include/coretypes/ctutils.h: ErrorCodeMessage"]}
{"id": "C312", "title": "Reading the list of errors", "statement": "Outside of guards reading the list of errors takes them away and leaves no scope behind; inside a guard it changes nothing.", "quantifier": "all sequences of guards created and released in any order, errors recorded, passed on, read and cleared", "why_tests_cant": "scopes, pending errors and chains of errors are unbounded, and what is seen depends on everything done before", "anchors": ["core/coretypes/src/errorinfo_impl.cpp: ErrorInfoHolder::getErrorInfoList, removeInitialGuard"]}
{"id": "C313", "title": "Refused errors leave nothing behind", "statement": "Passing on an error that is not the last pending one of the same guard is refused and leaves the thread as it was.", "quantifier": "all sequences of guards created and released in any order, errors recorded, passed on, read and cleared", "why_tests_cant": "scopes, pending errors and chains of errors are unbounded, and what is seen depends on everything done before", "anchors": ["core/coretypes/src/errorinfo_impl.cpp: ErrorGuardImpl::extendErrorInfo, ErrorInfoHolder::getOrCreateBack"]}
{"id": "C314", "title": "Messages in debug builds", "statement": "In a debug build the message of a guard has one line for each error from the original one to the one raised last, with message, file and line, and the place of the guard.", "quantifier": "all sequences of guards created and released in any order, errors recorded, passed on, read and cleared", "why_tests_cant": "scopes, pending errors and chains of errors are unbounded, and what is seen depends on everything done before", "anchors": ["core/coretypes/src/errorinfo_impl.cpp: ErrorGuardImpl::getFormattedMessage, ErrorInfoImpl::getFormattedMessage"]}
{"id": "C315", "title": "The selected source exists", "statement": "Outside of updates the selected source is the index of an interface whenever there is one, and zero otherwise. No interface is listed twice.", "quantifier": "all type managers and all sequences of calls that add, remove and select interfaces and change types", "why_tests_cant": "the number and order of interfaces is unbounded, and the index depends on all calls before", "anchors": ["core/opendaq/synchronization/include/opendaq/sync_component_impl.h: addInterface, removeInterface, setSelectedSource", "core/coreobjects/include/coreobjects/property_object_impl.h: checkSelectionValues"]}
{"id": "C316", "title": "The selection follows the interface", "statement": "Outside of updates every sequence of calls behaves like a list of interfaces one of which is selected by name: adding one keeps the selection, removing another one keeps it, removing the selected one selects the first one left, an unknown one or an index out of range changes nothing.", "quantifier": "all type managers and all sequences of calls that add, remove and select interfaces and change types", "why_tests_cant": "the number and order of interfaces is unbounded, and the index depends on all calls before", "anchors": ["core/opendaq/synchronization/include/opendaq/sync_component_impl.h: addInterface, removeInterface, getInterfaces, getSelectedSource, setSelectedSource"]}
{"id": "C317", "title": "Only sync interfaces, one of each class", "statement": "An interface is accepted exactly if its class is derived, at any depth, from SyncInterfaceBase, is not this class itself, and no interface of the class is there; it comes last and the selected index stays. A refused one changes nothing.", "quantifier": "all type managers, classes and states", "why_tests_cant": "chains of parents are unbounded", "anchors": ["core/opendaq/synchronization/include/opendaq/sync_component_impl.h: checkClassNameIsSyncInterface, addInterface"]}
{"id": "C318", "title": "The selected source exists after updates", "statement": "The selected source is the index of an interface in all sequences of calls with updates, and removing others does not select another interface.", "quantifier": "all sequences of calls with nested updates", "why_tests_cant": "the number and order of interfaces is unbounded, and the index depends on all calls before", "anchors": ["core/opendaq/synchronization/include/opendaq/sync_component_impl.h: removeInterface, setSelectedSource", "core/coreobjects/include/coreobjects/property_object_impl.h: beginUpdateInternal, endUpdateInternal, endApplyUpdate"]}
{"id": "C319", "title": "Adding an interface returns", "statement": "Adding an interface returns, whatever types are registered.", "quantifier": "all type managers and classes", "why_tests_cant": "chains of parents are unbounded", "anchors": ["core/opendaq/synchronization/include/opendaq/sync_component_impl.h: checkClassNameIsSyncInterface"]}
{"id": "C320", "title": "Selecting during updates", "statement": "A selection made during an update is accepted and has no effect before the outermost update ends. Then the selections are made in order up to the first index out of range, which the update fails with.", "quantifier": "all queues of selections and states", "why_tests_cant": "queues are unbounded", "anchors": ["core/opendaq/synchronization/include/opendaq/sync_component_impl.h: setSelectedSource", "core/coreobjects/include/coreobjects/property_object_impl.h: setPropertyValueInternal, endUpdateInternal, endApplyUpdate"]}
{"id": "C321", "title": "Asking about many signals at once", "statement": "From protocol version 4 on, asking an input port of a device about one signal answers what the device answers for its own signals, and accepts all others. With version 23 or later, asking about a list of signals answers what asking about each of them answers, and fails only as asking about one of them fails.", "quantifier": "all lists of signals and all answers of the device", "why_tests_cant": "lists are unbounded, and answers of the device and of the client are merged by position", "anchors": ["shared/libraries/config_protocol/include/config_protocol/config_client_input_port_impl.h: acceptsSignal, acceptsSignals"]}
{"id": "C322", "title": "Asking older devices about many signals", "statement": "With an older device, asking an input port of a device whether it accepts a list of signals answers what asking about each of them answers.", "quantifier": "all lists of signals, all answers of the device and all versions below 23", "why_tests_cant": "lists are unbounded", "anchors": ["shared/libraries/config_protocol/include/config_protocol/config_client_input_port_impl.h: acceptsSignal, acceptsSignals"]}
{"id": "C323", "title": "Numbers of streamed signals", "statement": "A signal a client streams to a device keeps its number as long as the client lives, no two signals have the same number, and no signal has the number that stands for no signal.", "quantifier": "all signals and all sequences of calls at the ports of a device, with the answers of the device and the times at which its events are handled", "why_tests_cant": "the number of ports, signals and calls is unbounded, and a signal is shared by ports and by other signals", "anchors": ["shared/libraries/config_protocol/src/config_protocol_streaming_producer.cpp: registerOrUpdateSignal", "shared/libraries/config_protocol/src/config_protocol_client.cpp: connectExternalSignalToServerInputPort"]}
{"id": "C324", "title": "Signals are streamed exactly while ports need them", "statement": "A client reads the packets of exactly those of its signals that are connected to ports of the device, and of their domain signals.", "quantifier": "all signals and all sequences of calls at the ports of a device, with the answers of the device and the times at which its events are handled", "why_tests_cant": "the number of ports, signals and calls is unbounded, and a signal is shared by ports and by other signals", "anchors": ["shared/libraries/config_protocol/src/config_protocol_streaming_producer.cpp: addConnection, removeConnection, addStreamingTrigger, removeStreamingTrigger"]}
{"id": "C325", "title": "The device mirrors what is needed", "statement": "A device has mirrored signals for exactly the signals of the client that are connected to its ports, and for their domain signals.", "quantifier": "all signals and all sequences of calls at the ports of a device, with the answers of the device and the times at which its events are handled", "why_tests_cant": "the number of ports, signals and calls is unbounded, and a signal is shared by ports and by other signals", "anchors": ["shared/libraries/config_protocol/src/config_protocol_streaming_consumer.cpp: getOrAddExternalSignal, removeExternalSignals", "shared/libraries/config_protocol/src/config_protocol_client.cpp: disconnectExternalSignalFromServerInputPort"]}
{"id": "C326", "title": "Client and device agree about ports", "statement": "The signal an input port of the client has is the one the port of the device has, and the one it was last connected to.", "quantifier": "all signals and all sequences of calls at the ports of a device, with the answers of the device and the times at which its events are handled", "why_tests_cant": "the number of ports, signals and calls is unbounded, and a signal is shared by ports and by other signals", "anchors": ["shared/libraries/config_protocol/include/config_protocol/config_client_input_port_impl.h: connect, disconnect, assignSignal"]}
{"id": "C327", "title": "Disconnecting stops streaming", "statement": "Once a port has been disconnected from a signal of the client, its packets are not read for the device any more unless another port needs them.", "quantifier": "all signals and all sequences of calls at the ports of a device, with the answers of the device and the times at which its events are handled", "why_tests_cant": "the number of ports, signals and calls is unbounded, and a signal is shared by ports and by other signals", "anchors": ["shared/libraries/config_protocol/include/config_protocol/config_client_input_port_impl.h: disconnect, assignSignal", "shared/libraries/config_protocol/src/config_protocol_streaming_producer.cpp: removeConnection"]}
{"id": "C328", "title": "The connected signal is the one streamed", "statement": "The packets sent to the device are those of the signal that was connected.", "quantifier": "all signals and all sequences of calls at the ports of a device, with the answers of the device and the times at which its events are handled", "why_tests_cant": "the number of ports, signals and calls is unbounded, and a signal is shared by ports and by other signals", "anchors": ["shared/libraries/config_protocol/src/config_protocol_streaming_producer.cpp: registerOrUpdateSignal, startReadSignal"]}
{"id": "C329", "title": "A connected port stays connected", "statement": "A port that has been connected keeps the signal when events of the device about earlier connections are handled.", "quantifier": "all signals and all sequences of calls at the ports of a device, with the answers of the device and the times at which its events are handled", "why_tests_cant": "the number of ports, signals and calls is unbounded, and a signal is shared by ports and by other signals", "anchors": ["shared/libraries/config_protocol/include/config_protocol/config_client_input_port_impl.h: connect, handleRemoteCoreObjectInternal"]}
{"id": "C330", "title": "A successful connection", "statement": "When connecting an input port of a device answers success, the port has the signal, whatever events of the device are handled in between.", "quantifier": "all signals and all sequences of calls at the ports of a device, with the answers of the device and the times at which its events are handled", "why_tests_cant": "the number of ports, signals and calls is unbounded, and a signal is shared by ports and by other signals", "anchors": ["shared/libraries/config_protocol/include/config_protocol/config_client_input_port_impl.h: connect"]}
{"id": "C331", "title": "A failed connection", "statement": "When connecting an input port of a device does not answer success, all ports of the client have the signals they had.", "quantifier": "all signals and all sequences of calls at the ports of a device, with the answers of the device and the times at which its events are handled", "why_tests_cant": "the number of ports, signals and calls is unbounded, and a signal is shared by ports and by other signals", "anchors": ["shared/libraries/config_protocol/include/config_protocol/config_client_input_port_impl.h: connect"]}
{"id": "C332", "title": "Lists and dictionaries count references", "statement": "However a client uses a list and a dictionary, an object lives exactly as long as the client, the list or the dictionary has a pointer to it: nothing is leaked, and nothing is destroyed while it is used.", "quantifier": "all sequences of acts of a client: creating objects, copying and dropping pointers, calling a list and a dictionary with any pointers it has, freezing and destroying them", "why_tests_cant": "sequences of calls are unbounded, and objects are shared between the client, a list and a dictionary", "anchors": ["core/corecontainers/src/listobject_impl.cpp: setItemAt, pushBack, moveBack, popBack, insertAt, removeAt, deleteAt, clear, internalDispose", "core/corecontainers/src/dictobject_impl.cpp: set, remove, deleteItem, clear"]}
{"id": "C333", "title": "Owning lists count references", "statement": "The same holds for lists that own their elements.", "quantifier": "all sequences of acts of a client: creating objects, copying and dropping pointers, calling a list and a dictionary with any pointers it has, freezing and destroying them, with an owner that may be destroyed", "why_tests_cant": "sequences of calls are unbounded, and objects are shared between the client, a list and a dictionary", "anchors": ["core/coreobjects/src/owning_list_impl.cpp: pushBack, moveBack, popBack, popFront, removeAt, deleteAt, clear", "core/corecontainers/include/coretypes/listptr.h: pushBack, pushFront, popBack, popFront"]}
{"id": "C334", "title": "What calls make of a list", "statement": "A call of a list succeeds exactly when the list is not frozen (or not changed), the index is smaller than the count, and there is an element to take; it then changes the elements as documented and gives the element at that place; otherwise nothing is changed.", "quantifier": "all lists, owning or not where the call succeeds, and all calls", "why_tests_cant": "lists and indices are unbounded", "anchors": ["core/corecontainers/src/listobject_impl.cpp: getItemAt, setItemAt, pushBack, pushFront, moveBack, moveFront, popBack, popFront, insertAt, removeAt, deleteAt, clear"]}
{"id": "C335", "title": "Frozen lists and dictionaries do not change", "statement": "A frozen list, owning or not, and a frozen dictionary refuse every call that would change them, and keep what they have for the rest of their lives.", "quantifier": "all containers, all calls and all sequences of calls", "why_tests_cant": "sequences are unbounded", "anchors": ["core/corecontainers/src/listobject_impl.cpp: freeze", "core/corecontainers/src/dictobject_impl.cpp: freeze", "core/coreobjects/src/owning_list_impl.cpp: setItemAt, pushBack, popBack, clear"]}
{"id": "C336", "title": "A dictionary is a map in order of insertion", "statement": "No two keys of a dictionary are equal. Setting a key gives it the value and leaves the other keys alone; a new key comes last, one that is there keeps its place. Removing a key leaves the others in their order. Reading, removing or deleting a key that is not there answers not found and changes nothing.", "quantifier": "all dictionaries, keys and values, any equality of keys", "why_tests_cant": "dictionaries are unbounded, and keys are compared by value", "anchors": ["core/corecontainers/src/dictobject_impl.cpp: get, set, remove, deleteItem, clear"]}
{"id": "C337", "title": "Elements have the owner of the list", "statement": "An object that can be owned has the owner of an owning list exactly while it is in the list.", "quantifier": "all sequences of acts of a client: creating objects, copying and dropping pointers, calling a list and a dictionary with any pointers it has, freezing and destroying them, on an owning list", "why_tests_cant": "sequences of calls are unbounded, and objects are shared between the client, a list and a dictionary", "anchors": ["core/coreobjects/src/owning_list_impl.cpp: setOwner, removeOwner, setItemAt, pushBack, insertAt, popBack, removeAt, deleteAt, clear"]}
{"id": "C338", "title": "A failed call of an owning list changes nothing", "statement": "When a call of an owning list fails, the list, its elements and their owners are what they were.", "quantifier": "all owning lists and all calls", "why_tests_cant": "lists are unbounded, and the call fails after the list has been changed", "anchors": ["core/coreobjects/src/owning_list_impl.cpp: setItemAt, pushBack, moveBack, popBack, insertAt, clear"]}
{"id": "C339", "title": "Adding gives the owner, taking out takes it away", "statement": "Adding an object that takes any owner to an owning list that is not frozen and whose owner lives succeeds, and the object has that owner afterwards, whichever it had before. Taking an object that is no input port out of it at either end succeeds, and it has no owner afterwards.", "quantifier": "all owning lists, all objects and all ways of adding and popping", "why_tests_cant": "the states of lists and objects are unbounded", "anchors": ["core/coreobjects/src/owning_list_impl.cpp: setOwner, pushBack, pushFront, moveBack, moveFront"]}
{"id": "C340", "title": "Origins are completed once", "statement": "Whatever the origin of a domain is, the text given to the parser of dates has a time and an offset, and completing it once more changes nothing.", "quantifier": "all texts", "why_tests_cant": "texts are unbounded", "anchors": ["core/opendaq/reader/include/opendaq/reader_utils.h: fixupIso8601"]}
{"id": "C341", "title": "Origins mean what they say", "statement": "An origin with a date alone is midnight in Greenwich, one without a zone is in Greenwich, and one with an offset keeps it.", "quantifier": "all dates, times and offsets", "why_tests_cant": "texts are unbounded", "anchors": ["core/opendaq/reader/include/opendaq/reader_utils.h: fixupIso8601"]}
{"id": "C342", "title": "Time points do not go back", "statement": "With a tick resolution of one by something, a later tick never has an earlier time point, for every sample type of ticks and every origin.", "quantifier": "all ticks of the type, all origins and denominators, and any rounding that keeps the order", "why_tests_cant": "ticks, origins and resolutions range over 64 bits, and sequences of descriptors are unbounded", "anchors": ["core/opendaq/reader/include/opendaq/time_reader.h: readSamples"]}
{"id": "C343", "title": "Time points do not go back with other resolutions", "statement": "With any tick resolution, a later tick never has an earlier time point.", "quantifier": "all ticks of the type, all origins and resolutions", "why_tests_cant": "ticks, origins and resolutions range over 64 bits, and sequences of descriptors are unbounded", "anchors": ["core/opendaq/reader/include/opendaq/time_reader.h: readSamples"]}
{"id": "C344", "title": "Time points are exact to microseconds", "statement": "A time point is off by at most half a nanosecond and six parts in 2^53 of the distances of the origin and of the tick, less than seven microseconds within the range of the system clock, as long as tick times numerator is in the range of the type.", "quantifier": "all ticks, origins and resolutions with a denominator up to 2^53, and any rounding with the error bounds of IEEE 754", "why_tests_cant": "ticks, origins and resolutions range over 64 bits, and sequences of descriptors are unbounded", "anchors": ["core/opendaq/reader/include/opendaq/time_reader.h: readSamples"]}
{"id": "C345", "title": "Different ticks have different time points", "statement": "Ticks at least one nanosecond apart have different time points.", "quantifier": "all ticks, origins and resolutions", "why_tests_cant": "ticks, origins and resolutions range over 64 bits, and sequences of descriptors are unbounded", "anchors": ["core/opendaq/reader/include/opendaq/time_reader.h: readSamples"]}
{"id": "C346", "title": "Time points follow the descriptor", "statement": "The time points of ticks depend on nothing but the domain descriptor they come with: they are counted from its origin, whatever has been read before.", "quantifier": "all sequences of descriptors and ticks", "why_tests_cant": "ticks, origins and resolutions range over 64 bits, and sequences of descriptors are unbounded", "anchors": ["core/opendaq/reader/include/opendaq/time_reader.h: transform, handleDescriptorChanged"]}
{"id": "C347", "title": "Only time is converted", "statement": "Time points are made only of ticks whose quantity is time, whose unit is the second and whose type is a number, one for each tick, with the resolution of their descriptor, whatever has been read before.", "quantifier": "all sequences of descriptors and ticks", "why_tests_cant": "ticks, origins and resolutions range over 64 bits, and sequences of descriptors are unbounded", "anchors": ["core/opendaq/reader/include/opendaq/time_reader.h: transform, handleDescriptorChanged, readData"]}
{"id": "C348", "title": "Packets are read in order, none twice", "statement": "The data a packet reader hands out are among the data sent to it, in order and none twice, however they are read; while the connection stays, nothing is lost.", "quantifier": "all histories of connections, packets, descriptor changes, reads, callbacks, listeners and scheduler steps", "why_tests_cant": "histories are unbounded, and reads by the client, by its callback and by scheduled notifications interleave", "anchors": ["core/opendaq/reader/src/packet_reader_impl.cpp: read, readAll, packetReceived", "core/opendaq/signal/src/connection_impl.cpp: dequeue"]}
{"id": "C349", "title": "Every packet can be read", "statement": "Every data packet sent to a packet reader is received by the client or waits for it, also when its signal is disconnected or replaced.", "quantifier": "all histories of connections, packets, descriptor changes, reads, callbacks, listeners and scheduler steps", "why_tests_cant": "histories are unbounded, and reads by the client, by its callback and by scheduled notifications interleave", "anchors": ["core/opendaq/reader/src/packet_reader_impl.cpp: disconnected, connected"]}
{"id": "C350", "title": "Counts announce what is read", "statement": "The number of available packets is the number of packets read when all are read, a reader is empty exactly if that is none, and reading one packet gives the first of them and leaves the others.", "quantifier": "all states of the reader", "why_tests_cant": "queues are unbounded", "anchors": ["core/opendaq/reader/src/packet_reader_impl.cpp: getAvailableCount, getEmpty, read, readAll"]}
{"id": "C351", "title": "The callback is called for every packet", "statement": "Between two settings of the callback, it is called exactly once for every packet sent to the reader, at once or when the scheduler comes to it, however many packets are read meanwhile and whether it fails or not.", "quantifier": "all histories of connections, packets, descriptor changes, reads, callbacks, listeners and scheduler steps", "why_tests_cant": "histories are unbounded, and reads by the client, by its callback and by scheduled notifications interleave", "anchors": ["core/opendaq/reader/src/packet_reader_impl.cpp: packetReceived", "core/opendaq/signal/include/opendaq/input_port_impl.h: notifyPacketEnqueued"]}
{"id": "C352", "title": "Reading everything in the callback is enough", "statement": "If the callback of a reader that is notified on the same thread reads everything available, nothing waits after any act.", "quantifier": "all histories of connections, packets, descriptor changes, reads, callbacks, listeners and scheduler steps", "why_tests_cant": "histories are unbounded, and reads by the client, by its callback and by scheduled notifications interleave", "anchors": ["core/opendaq/reader/src/packet_reader_impl.cpp: packetReceived"]}
{"id": "C353", "title": "The external listener is told of every packet", "statement": "An external listener is told of every connection, disconnection and packet.", "quantifier": "all histories of connections, packets, descriptor changes, reads, callbacks, listeners and scheduler steps", "why_tests_cant": "histories are unbounded, and reads by the client, by its callback and by scheduled notifications interleave", "anchors": ["core/opendaq/reader/src/packet_reader_impl.cpp: packetReceived, connected, disconnected"]}
{"id": "C354", "title": "Data are read after their descriptor", "statement": "A packet reader hands out every data packet after its descriptor, with no other descriptor between, also when signals are replaced and packets are lost.", "quantifier": "all histories of connections, packets, descriptor changes, reads, callbacks, listeners and scheduler steps, with one reader at the port", "why_tests_cant": "histories are unbounded, and reads by the client, by its callback and by scheduled notifications interleave", "anchors": ["core/opendaq/reader/src/packet_reader_impl.cpp: read, readAll", "core/opendaq/signal/include/opendaq/input_port_impl.h: connectInternal"]}
{"id": "C355", "title": "A reader that takes over a port knows the descriptor", "statement": "A packet reader made from a port at which packets wait finds every waiting data packet after its descriptor.", "quantifier": "all histories of connections, packets, descriptor changes, reads, callbacks, listeners and scheduler steps, then a second reader", "why_tests_cant": "histories are unbounded, and reads by the client, by its callback and by scheduled notifications interleave", "anchors": ["core/opendaq/reader/src/packet_reader_impl.cpp: PacketReaderImpl", "core/opendaq/signal/include/opendaq/input_port_impl.h: setListener", "core/opendaq/signal/src/connection_impl.cpp: enqueueLastDescriptor"]}
{"id": "C356", "title": "Refused connections change nothing", "statement": "When the external listener refuses a connection, what waited for the reader still waits.", "quantifier": "all states of the reader", "why_tests_cant": "states of reader and port are unbounded", "anchors": ["core/opendaq/signal/include/opendaq/input_port_impl.h: connectInternal", "core/opendaq/reader/src/packet_reader_impl.cpp: connected"]}
{"id": "C357", "title": "A name stands for one component", "statement": "From the moment a logger component was got by a name until it is removed, the same component is got by that name and no other can be added; it has that name; after it was removed it is not found and the next one of that name is a new one.", "quantifier": "all histories of calls to a logger, its components and its sinks, and all environments", "why_tests_cant": "histories and names are unbounded", "anchors": ["core/opendaq/logger/src/logger_impl.cpp: getOrAddComponent, addComponent, removeComponent, getComponent"]}
{"id": "C358", "title": "Components inherit levels and keep them", "statement": "A new component has the level and the flush level of the logger at that moment. Later its level changes only when it is set on the component itself; a flush level set on the logger holds for all its components, also those added later.", "quantifier": "all histories of calls to a logger, its components and its sinks, and all environments", "why_tests_cant": "histories and names are unbounded", "anchors": ["core/opendaq/logger/src/logger_impl.cpp: getOrAddComponent, setLevel, flushOnLevel", "core/opendaq/logger/src/logger_component_impl.cpp: setLevel, flushOnLevel"]}
{"id": "C359", "title": "Messages come out where they should", "statement": "A message comes out at a sink, once and in order, exactly if its level is not below that of the component and not below that of the sink; a component that says it will not log a level does not log it.", "quantifier": "all histories of calls to a logger, its components and its sinks, and all environments", "why_tests_cant": "histories and names are unbounded", "anchors": ["core/opendaq/logger/src/logger_component_impl.cpp: logMessage, shouldLog", "core/opendaq/logger/src/logger_sink_impl.cpp: setLevel, shouldLog"]}
{"id": "C360", "title": "A component that is off is silent", "statement": "No message given to a component whose level is off comes out.", "quantifier": "all histories of calls to a logger, its components and its sinks, and all environments", "why_tests_cant": "histories and names are unbounded", "anchors": ["core/opendaq/logger/src/logger_component_impl.cpp: logMessage, setLevel"]}
{"id": "C361", "title": "Default levels come from the environment", "statement": "The default level of a component is the level its own environment variable names, else the one the general variable names, else the compiled one; variables that name no level do not count.", "quantifier": "all names and environments", "why_tests_cant": "the values of variables are unbounded", "anchors": ["core/opendaq/logger/src/logger_component_impl.cpp: getDefaultLogLevel"]}
{"id": "C362", "title": "Components have real levels", "statement": "When a component is given the default level, or inherits it, the level it has is a real one.", "quantifier": "all histories of calls to a logger, its components and its sinks, and all environments", "why_tests_cant": "histories and names are unbounded", "anchors": ["core/opendaq/logger/src/logger_component_impl.cpp: getLogLevelFromParam, getDefaultLogLevel, setLevel"]}
{"id": "C363", "title": "The part of a log asked for is handed out", "statement": "A device hands out exactly the part of its log file asked for: the bytes from the offset on, as many as asked for or as there are, all that remain for the size -1; impossible sizes and offsets are refused, and other ids give nothing.", "quantifier": "all devices, files, sizes and offsets", "why_tests_cant": "files, sizes and offsets are unbounded", "anchors": ["core/opendaq/device/include/opendaq/device_impl.h: getLog", "examples/modules/ref_device_module/src/ref_device_impl.cpp: onGetLog"]}
{"id": "C364", "title": "A log can be got in pieces", "statement": "A client that gets a log in pieces, each from the end of those before, has the beginning of the log at all times, also while the device goes on writing; it gets further with each piece, and has everything when a piece is empty.", "quantifier": "all sequences of pieces of any sizes and of writes between them", "why_tests_cant": "sequences are unbounded and interleave with writes", "anchors": ["core/opendaq/device/include/opendaq/device_impl.h: getLog", "examples/modules/ref_device_module/src/ref_device_impl.cpp: onGetLog"]}
{"id": "C365", "title": "Listed logs can be got", "statement": "Every log file listed can be got whole by its id and has as many bytes as its size says.", "quantifier": "all devices, files, sizes and offsets", "why_tests_cant": "files, sizes and offsets are unbounded", "anchors": ["examples/modules/ref_device_module/src/ref_device_impl.cpp: onGetLogFileInfos, onGetLog"]}
{"id": "C366", "title": "Descriptions of log files can be sent", "statement": "A description of a log file that can be built can be serialized, and is the same afterwards.", "quantifier": "all descriptions, with all 64-bit sizes", "why_tests_cant": "strings and combinations of missing parts are unbounded", "anchors": ["core/opendaq/device/src/log_file_info_impl.cpp: LogFileInfoImpl, serialize, Deserialize"]}
{"id": "C367", "title": "Different log files have different ids", "statement": "Log files without given ids that differ in place or name have different ids.", "quantifier": "all places and names", "why_tests_cant": "names are unbounded", "anchors": ["core/opendaq/device/src/log_file_info_impl.cpp: LogFileInfoImpl"]}
{"id": "C368", "title": "Calls at a fixed rate do not drift", "statement": "At a fixed rate the call of number k since the start begins not before the delay and k intervals have passed, whatever the calls before took, and can begin as soon as they have; the number of calls is counted.", "quantifier": "all interleavings of the client and the thread, with any passing of time and wake-ups without reason between", "why_tests_cant": "interleavings and times are unbounded, and a lost notification or a drift shows only in some", "anchors": ["shared/libraries/utils/src/timer_thread.cpp: execute, getNoOfCallbacks"]}
{"id": "C369", "title": "Calls with a fixed delay keep their distance", "statement": "With a fixed delay a call begins not before the interval has passed since the call before ended, the first not before the start delay has passed, and can begin as soon as it has.", "quantifier": "all interleavings of the client and the thread, with any passing of time and wake-ups without reason between", "why_tests_cant": "interleavings and times are unbounded, and a lost notification or a drift shows only in some", "anchors": ["shared/libraries/utils/src/timer_thread.cpp: execute"]}
{"id": "C370", "title": "A timer that was stopped is still", "statement": "Once stop has returned, no call begins or is under way until the timer is started again, which is possible.", "quantifier": "all interleavings of the client and the thread, with any passing of time and wake-ups without reason between", "why_tests_cant": "interleavings and times are unbounded, and a lost notification or a drift shows only in some", "anchors": ["shared/libraries/utils/src/timer_thread.cpp: start, stop", "shared/libraries/utils/src/thread_ex.cpp: stop, waitFor"]}
{"id": "C371", "title": "A timer that is being stopped calls no more", "statement": "After stop has been called, no call begins.", "quantifier": "all interleavings of the client and the thread, with any passing of time and wake-ups without reason between", "why_tests_cant": "interleavings and times are unbounded, and a lost notification or a drift shows only in some", "anchors": ["shared/libraries/utils/src/timer_thread.cpp: stop, execute", "shared/libraries/utils/src/thread_ex.cpp: terminate"]}
{"id": "C372", "title": "Negative delays stand for the interval", "statement": "A timer made with a negative delay first calls after the interval.", "quantifier": "all intervals and delays, and all times of start", "why_tests_cant": "delays and times are unbounded; only some times of start show it", "anchors": ["shared/libraries/utils/src/timer_thread.cpp: TimerThread, execute"]}
{"id": "C373", "title": "Intervals that are set are used", "statement": "An interval set on a timer holds from the next call on.", "quantifier": "all interleavings of the client and the thread, with any passing of time and wake-ups without reason between", "why_tests_cant": "interleavings and times are unbounded, and a lost notification or a drift shows only in some", "anchors": ["shared/libraries/utils/src/timer_thread.cpp: setIntervalMs, setDelayMs, execute"]}
{"id": "C374", "title": "Requests of pings are well-formed", "statement": "The words of every request, with its checksum, sum to zero in ones' complement, so hosts accept it, and the host reads the type, identifier and sequence number that were set.", "quantifier": "all identifiers, sequence numbers and bodies of bytes that fit into a packet", "why_tests_cant": "carries of the checksum show only for some of the very many bodies and identifiers", "anchors": ["core/opendaq/modulemanager/include/opendaq/icmp_header.h: computeChecksum", "core/opendaq/modulemanager/src/icmp_header.cpp: encode, decode", "core/opendaq/modulemanager/src/icmp_ping.cpp: startSend"]}
{"id": "C375", "title": "Answers to pings are recognised", "statement": "An answer with the identifier and sequence number of the ping is counted and its source is found, whatever options its header has; packets of other kinds, of other pings, of other versions or cut off change nothing.", "quantifier": "all states of the ping and all packets", "why_tests_cant": "packets are unbounded and come from outside", "anchors": ["core/opendaq/modulemanager/src/ipv4_header.cpp: operator>>, getSourceAddress", "core/opendaq/modulemanager/src/icmp_header.cpp: operator>>", "core/opendaq/modulemanager/src/icmp_ping.cpp: handleReceive"]}
{"id": "C376", "title": "The wait for answers ends when all have answered", "statement": "The wait for answers ends before its time only when every address asked has answered.", "quantifier": "all addresses asked and all sequences of packets", "why_tests_cant": "sequences of packets are unbounded and come from outside", "anchors": ["core/opendaq/modulemanager/src/icmp_ping.cpp: waitSendAndReply, handleReceive"]}
{"id": "C377", "title": "The addresses found were asked", "statement": "The addresses reported after a ping are among those that it asked.", "quantifier": "all addresses asked and all sequences of packets", "why_tests_cant": "late answers come only with some timing of the network", "anchors": ["core/opendaq/modulemanager/src/icmp_ping.cpp: start, startSend, handleReceive, getReplyAddresses"]}
