{
 "C03": {
  "note": "Exact when the producer submits only descriptor events and, with gap checking, packets are dequeued one by one; an event is never missed. False in general: the gap counter survives dequeueAll/dequeueUpTo, and other events are never uncounted (violation theorems)."
 },
 "C04": {
  "note": "Under the connection's contract that gap packets are not submitted by the producer; a violation theorem shows the contract is needed."
 },
 "C06": {
  "note": "Exact notification rule for every history; being told of the empty queue by dequeueAll does not re-arm the notification (violation theorem)."
 },
 "C07": {
  "note": "Exact result of enqueue for every history; batches drop events on an inactive port (violation theorem)."
 },
 "C08": {
  "note": "For cacheable payload limits below 2^32 - 48 (SizeOK); C08_violation_size_wrap shows the error raised without it."
 },
 "C12": {
  "note": "Full for histories in which each packet is sent while the client holds its domain packet (equivalence). In any order: missing the case of a held-back packet sent again with the release mark, where the code keeps the reference for ever (C12_violation_handed_over)."
 },
 "C47": {
  "note": "Order is not part of the claim: C47_violation_reordered shows a held-back packet delivered after, and with, a later descriptor."
 },
 "C14": {
  "note": "Every message with a non-empty JSON text and fewer than 65536 versions. An empty JSON text can be created but is refused when parsed, and 65536 versions are announced as none (violation theorems)."
 },
 "C15": {
  "note": "All parse functions on every received block except the info reply, whose loop trusts the version count; C15_info_reply_iff says exactly when it leaves the block."
 },
 "C16": {
  "note": "A version is accepted iff it was announced, in every server state. Missing from the claim as a user would state it: a rejected upgrade still changes the server's version (C16_violation_rejected)."
 },
 "C17": {
  "note": "Frame codec: all frames, all truncations, all byte strings in bounds. Reading packet fields is in bounds only if the header is as long as its type needs and event texts are terminated; the session layer checks neither (violation theorems). The 32-bit size sum wraps for payloads of nearly 2^32 bytes."
 },
 "C18": {
  "note": "Reports of subscribe, unsubscribe, disconnect and remove are exact for clients that requested streaming, over every history; the alternation theorem has no restriction. C18_violation_stale_subscription: the subscription of a client that never requested streaming survives its disconnection."
 },
 "C19": {
  "status": "partial",
  "note": "Received packets are exactly the expected ones while no publishing call fails; nothing fails if clients subscribe only after requesting streaming and data follows a descriptor. Missing: neither condition is enforced by the manager (C19_violation_unregistered_subscriber: one such client stops delivery to all)."
 },
 "C20": {
  "note": "For every reachable server queue (cacheable limit below 2^32-48) and every memory content behind the buffers. Messages above the transport limit are refused with an exception."
 },
 "C49": {
  "note": "Violated: the two settings are exchanged for every client in every history (C49_violation_swapped); they are applied as named only if equal."
 },
 "C50": {
  "note": "Holds while clients withdraw only their own signals; the withdrawal does not check the client (violation theorem)."
 },
 "C22": {
  "note": "Bulk values proved for ordered positions inside the packet, bounds characterised exactly; single values return the previous position (violation), proved to agree off the change positions."
 },
 "C51": {
  "note": "For explicit and linear rules and all histories; violated for constant rules, explicit rules with reference domain offset, floats with reference domain offset, custom rules (witnesses)."
 },
 "C52": {
  "note": "All histories of writes, reads and reuses with sizes below 2^32, explicit and linear rules; violations: 32-bit wrap, stale cache after write, reuse of constant rule packets."
 },
 "C23": {
  "note": "All histories of queue operations and reads; the absence of hangs and overruns needs a leading descriptor and complete domain packets (violations otherwise)."
 },
 "C25": {
  "note": "Exact for readers that report events; with skipEvents exact when every descriptor is convertible (violation otherwise)."
 },
 "C26": {
  "note": "For readers that report events and histories without gap events and with complete domain packets (violations otherwise)."
 },
 "C27": {
  "note": "For reads of at most getAvailableCount blocks (or ended by an event), non-empty packets, and with overlap at most half a block and one packet size; every condition is needed (violations)."
 },
 "C53": {
  "note": "Proved when the current packet holds no more samples than requested; two violations."
 },
 "C28": {
  "note": "All rule lists, ownership trees and histories in which ownership stays acyclic and owners outlive what they own."
 },
 "C29": {
  "note": "Exact decision; a mask of several bits is satisfied by any one of them."
 },
 "C30": {
  "note": "For histories in which ownership stays acyclic and owners outlive what they own; both conditions are needed (violations).",
  "status": "partial"
 },
 "C31": {
  "note": "All trees, users and histories. The holder can be another object of the same user, which unlock does not recognise (violation)."
 },
 "C32": {
  "note": "All user lists, JSON documents, names and passwords; bcrypt is a parameter. Two violations of the intent."
 },
 "C54": {
  "note": "Success conditions and effects exact, coverage for all histories. That a failed call changes nothing is proved for lock when the caller holds nothing below; otherwise and for unlock it is violated."
 },
 "C33": {
  "note": "All ratios without the smallest integer; equality means equal value for denominators of the same sign, otherwise it is violated."
 },
 "C55": {
  "note": "All 64-bit ratios; the conditions for overflow are exact."
 },
 "C34": {
  "note": "All strings. `idEndsWith` is exact on characters but not on path segments (violation)."
 },
 "C35": {
  "note": "All trees reachable by creating and adding components with slash-free ids under their own parent; both conditions are needed (violation)."
 },
 "C36": {
  "note": "The check is exact for all reachable nets. Acyclicity needs listeners to stay as created (violation otherwise)."
 },
 "C37": {
  "note": "All histories, events, serialization and client mirror."
 },
 "C38": {
  "note": "Values, types, events and round trip for all histories; the client mirror holds when no status is added after connecting and none is named Message."
 },
 "C56": {
  "note": "Exact for relative and slash-prefixed ids; a component's own global id is not resolved as one would expect."
 },
 "C57": {
  "note": "All histories; three violations at the edges (direct removal, same id in another folder, folder inside itself)."
 },
 "C58": {
  "note": "For trees in which items are added before their parent changes and no item is removed directly; both are needed."
 },
 "C39": {
  "note": "All histories of single calls without handlers; with handlers see C44. Clearing everything at once is right for the properties of the object itself; it leaves the values of class properties (violation)."
 },
 "C40": {
  "note": "Range: all histories, any handlers. Validator and selection list only under the stated conditions, which are needed (violations)."
 },
 "C41": {
  "note": "All histories and handlers. Inside an update the refusal comes late (violation)."
 },
 "C42": {
  "note": "All bodies and nestings; handlers arbitrary as long as they do not look at the update flag. A failing call loses the rest (violation)."
 },
 "C43": {
  "note": "All classes, local properties and orders."
 },
 "C44": {
  "note": "No residue for all histories and handlers in which handlers of the class and of the whole object raise no exception; innermost value for every chain of rewrites that comes to rest; otherwise the call does not return."
 },
 "C45": {
  "note": "Lexer and parser are each characterised exactly (iff) by separate relations. Violations: trailing tokens ignored, unclosed string dropped, characters outside ASCII undefined.",
  "status": "proved"
 },
 "C59": {
  "note": "Any order of release; packets of no bytes and sizes beyond 64 bits are excluded (violations)."
 },
 "C60": {
  "note": "Exact for getMaxAvailableContinousSampleCount in every state; the other query is wrong (violation)."
 },
 "C61": {
  "note": "Holds for packets released in the order of creation; lost for good in other orders (violation, with a proof that it never recovers), and packets of more than half the buffer may be refused (violation)."
 },
 "C62": {
  "note": "Start and progress for all sequences of packets and calls, also from a new reader; without the exactness conditions see the violations."
 },
 "C63": {
  "note": "Delivery for all sequences, common rate and dividers of a new reader; staying together needs counts that are multiples (reading what is available is enough, C64); violations otherwise."
 },
 "C64": {
  "note": "Reported numbers can be read; 0 may be reported although there are samples, and hanging with a minimal count above 1 (violations)."
 },
 "C65": {
  "note": "All histories while the reader is valid; violations for invalid readers and for a minimal count above 1."
 },
 "C66": {
  "note": "All sequences of calls."
 },
 "C67": {
  "note": "All reachable states and calls."
 },
 "C68": {
  "note": "All sequences of calls in which nobody sends descriptors as packets."
 },
 "C69": {
  "note": "All sequences in which lists of packets end in a data packet with samples or have none; violation otherwise."
 },
 "C70": {
  "note": "All sequences in which no scaling narrows; violation otherwise."
 },
 "C71": {
  "note": "All sequences in which no listener refuses a connection; violation otherwise."
 },
 "C72": {
  "note": "Under conditions on domain signals that are listened to, with three violations."
 },
 "C73": {
  "note": "All states and queues. What readWithDomain of a reader that became invalid reports is the subject of C65_violation_event."
 },
 "C74": {
  "note": "Any number of clients and calls, all interleavings of their atomic steps (sequentially consistent)."
 },
 "C75": {
  "note": "Any number of clients and calls, all interleavings of their atomic steps (sequentially consistent)."
 },
 "C76": {
  "note": "Any number of clients and calls, all interleavings of their atomic steps (sequentially consistent)."
 },
 "C77": {
  "note": "All programs, any number of variables and objects."
 },
 "C78": {
  "note": "The code violates the claim in several ways (see the witnesses). Proved: a failed conversion into an unassigned variable changes nothing."
 },
 "C79": {
  "note": "All values of any depth; `HashOk` states what the C++ standard requires of std::hash."
 },
 "C80": {
  "note": "The code violates the claim (see the witnesses). Proved for plain values."
 },
 "C81": {
  "note": "All sequences of calls."
 },
 "C82": {
  "note": "The code violates the claim (see the witnesses). Proved for keys with content-based hash codes."
 },
 "C83": {
  "note": "All values."
 },
 "C84": {
  "note": "All pairs of one kind."
 },
 "C85": {
  "note": "The code violates the claim (see the witnesses). Proved: a float compared with an integer below 2^53."
 },
 "C86": {
  "note": "JSON text itself is rapidjson's; exact reading of floats is the hypothesis `rt f = f`."
 },
 "C87": {
  "note": "The code violates the claim (see the witnesses). Proved for storable values."
 },
 "C88": {
  "note": "All lists and sequences of calls."
 },
 "C89": {
  "note": "The code violates the claim (see the witnesses). Proved for 32-bit integers."
 },
 "C90": {
  "note": "All numbers and sizes without overflow of the address space."
 },
 "C91": {
  "note": "The code violates the claim (see the witnesses). Proved: an aligned block gives aligned buffers."
 },
 "C92": {
  "note": "All interleavings of sequentially consistent atomic steps."
 },
 "C93": {
  "note": "The code violates the claim (see the witnesses). Proved: in the end every subscriber was told once."
 },
 "C94": {
  "note": "All histories; handlers are recognized by their hash codes, see C97."
 },
 "C95": {
  "note": "All programs of the stated kind."
 },
 "C96": {
  "note": "The code violates the claim (see the witnesses). Proved for handlers that do not remove or mute."
 },
 "C97": {
  "note": "The code violates the claim (see the witnesses). Proved for functions and methods."
 },
 "C98": {
  "note": "All filters and components."
 },
 "C99": {
  "note": "The code violates the claim (see the witnesses). Proved: a search enters at least what is documented."
 },
 "C100": {
  "note": "All trees with distinct global ids, all filters."
 },
 "C101": {
  "note": "All trees with distinct global ids whose default folders hold what they are meant to hold, all filters."
 },
 "C102": {
  "note": "All trees with distinct global ids, all filters."
 },
 "C103": {
  "note": "The code violates the claim (see the witnesses). Proved: what a device does return; function blocks with filters that want function blocks only; listings that are not recursive."
 },
 "C104": {
  "note": "All trees of the stated shape."
 },
 "C105": {
  "note": "All histories that keep the rules, any number of signals and sources."
 },
 "C106": {
  "note": "All histories that keep the rules."
 },
 "C107": {
  "note": "The code violates the claim (see the witnesses). Proved for all histories: a server is asked only for what it offers."
 },
 "C108": {
  "note": "First part for all states and calls, second for all histories that keep the rules."
 },
 "C109": {
  "note": "The code violates the claim (see the witnesses). Proved for all histories that keep the rules."
 },
 "C110": {
  "note": "All histories and trees of the stated kinds."
 },
 "C111": {
  "note": "The code violates the claim (see the witnesses). Proved for accepted values, handlers that set nothing else and acceptable defaults."
 },
 "C112": {
  "note": "The code violates the claim (see the witnesses). Proved for properties with limits of their own and no change during the connection, with any history afterwards."
 },
 "C113": {
  "note": "The code violates the claim (see the witnesses). Proved, at all depths, for values, attributes, statuses, removed items and properties, new items, and new properties of the component itself."
 },
 "C114": {
  "note": "All trees, paths and values, for properties with limits of their own."
 },
 "C115": {
  "note": "The code violates the claim for nested objects (see the witnesses). Proved for the component itself."
 },
 "C116": {
  "note": "The code violates the claim (see the witnesses). Proved for statuses that the client knows and an unlocked active state."
 },
 "C117": {
  "note": "All histories; for types whose comparison gives an answer (see C120 for types with null defaults)."
 },
 "C118": {
  "note": "All managers, types and dictionaries with distinct names of fields (see C119)."
 },
 "C119": {
  "note": "The code violates the claim (see the witnesses). Proved for types without enumeration fields and with defaults of the right types."
 },
 "C120": {
  "note": "The code violates the claim (see the witnesses). Proved: the answer is yes exactly for structs with the same type, fields and order."
 },
 "C121": {
  "note": "All types with distinct names of fields and defaults of the right core types, all histories of `set` and `build`."
 },
 "C122": {
  "note": "The code violates the claim (see the witnesses). Proved: what setFieldValues does, for all values."
 },
 "C123": {
  "note": "All lists, dictionaries and first values."
 },
 "C124": {
  "note": "The code violates the claim (see the witnesses). Proved for managers whose types have consistent parts with free names: all types are there after reading, and nothing but them and their parts."
 },
 "C125": {
  "note": "All values and managers."
 },
 "C126": {
  "note": "The code violates the claim (see the witnesses). Proved: a struct of simple values is read back with the same fields."
 },
 "C127": {
  "note": "All managers and chains of any length, given room on the stack."
 },
 "C128": {
  "note": "The code violates the claim (see the witnesses). Proved for histories that keep to the documentation."
 },
 "C129": {
  "note": "The code violates the claim (see the witnesses). Proved: without overriding, or with a custom order, every property once; names in order in any case."
 },
 "C130": {
  "note": "All chains, properties and orders."
 },
 "C131": {
  "note": "Histories: all without reference properties; single calls and clones: with them, too."
 },
 "C132": {
  "note": "The code violates the claim (see the witness). Proved for the properties of the class itself."
 },
 "C133": {
  "note": "The code violates the claim (see the witnesses). Proved for managers without reference properties: the same classes with their properties in listed order, and the same answers to every lookup."
 },
 "C134": {
  "note": "All states and calls; removal from lists for lists without repetition."
 },
 "C135": {
  "note": "All requests but the three of C136. That the state is unchanged needs that reading calls do not change it."
 },
 "C136": {
  "note": "The code violates the claim (see the witness). Proved: the operation mode is switched only for a user who may write the device."
 },
 "C137": {
  "note": "All changing requests but those of C138; for functions, reading calls are assumed not to change the state."
 },
 "C138": {
  "note": "The code violates the claim (see the witness). Proved: the operation mode is switched only for a user who may write the device."
 },
 "C139": {
  "note": "All requests with a check on their component; nested properties by name."
 },
 "C140": {
  "note": "The code violates the claim (see the witness). Proved: without a path, only the named component is touched, and the user may write it."
 },
 "C141": {
  "note": "All requests; properties by names without dots and without DaqDeviceInfo (see C144); SetProtectedPropertyValue in C144."
 },
 "C142": {
  "note": "All properties and states; reading calls are assumed not to change the state."
 },
 "C143": {
  "note": "The code violates the claim (see the witness). Proved: requests that read only read."
 },
 "C144": {
  "note": "The code violates the claim (see the witness). Proved for text as protected value, and for DaqDeviceInfo followed by a dot and a name."
 },
 "C145": {
  "note": "All trees and addresses."
 },
 "C146": {
  "note": "Names and ids are unique. Updates from a configuration are arbitrary changes (C113)."
 },
 "C147": {
  "note": "Proved if the property takes the value its handlers leave as it is; the code violates it otherwise (see the witness)."
 },
 "C148": {
  "note": "All histories, also those with late announcements."
 },
 "C149": {
  "note": "Announcements (transport layer properties) come before the first configuration packet or streaming request of a session, as in the openDAQ client. At the limit a client is refused even if it would drop others."
 },
 "C150": {
  "note": "Proved for announcements before use (C149) and for view-only clients; the code violates it otherwise (see the witnesses)."
 },
 "C151": {
  "note": "Proved except that users are not compared, which is a violation (see the witness)."
 },
 "C152": {
  "note": "The root device is not removed."
 },
 "C153": {
  "note": "Proved for C152's histories, and for all histories that entries have distinct numbers and that adding and removing never fails; the code violates it otherwise (see the witnesses)."
 },
 "C154": {
  "note": "Proved if announcements come before use; the code violates it otherwise (see the witness)."
 },
 "C155": {
  "note": "Proved if no client takes an id of the form the server assigns; the code violates it otherwise (see the witness)."
 },
 "C156": {
  "note": "The settings are interchanged; they are right only if they are equal."
 },
 "C157": {
  "note": "Exactly three causes; each has a witness."
 },
 "C158": {
  "note": "Interleavings at the granularity of accesses to shared state; the list of events is guarded by its lock."
 },
 "C159": {
  "note": "Both parts hold for every history."
 },
 "C160": {
  "note": "Both for versions that collect events and those that do not."
 },
 "C161": {
  "note": "Needs that no event waits when the call begins and nothing else goes on."
 },
 "C162": {
  "note": "The code violates it (see the witness); proved: a list is only lost if one of its events cannot be sent."
 },
 "C163": {
  "note": "The code violates it (see the witness).",
  "status": "partial"
 },
 "C164": {
  "note": "Covers any list of versions offered by a server; the second theorem is about this server."
 },
 "C165": {
  "note": "Proved for supported versions; the code violates it otherwise (see the witnesses)."
 },
 "C166": {
  "note": "Proved as long as no external signal was refused; the code violates it otherwise (see the witness)."
 },
 "C167": {
  "note": "The condition on checks is needed: see C169."
 },
 "C168": {
  "note": "Any document, any object."
 },
 "C169": {
  "note": "The code violates it (see the witness); proved where checks only look at properties that come before."
 },
 "C170": {
  "note": "Both for the first pass and the whole load; independent of the connections."
 },
 "C171": {
  "note": "The conditions on what was connected before and on loops are needed: see C172 and C175."
 },
 "C172": {
  "note": "The code violates it (see the witnesses); proved if nothing is connected before."
 },
 "C173": {
  "note": "The code violates it (see the witness); proved: they are the same after as before."
 },
 "C174": {
  "note": "The code violates it (see the witnesses); proved: what is built in stays, with its type, ports, signals, tags and locked attributes."
 },
 "C175": {
  "note": "The code violates it (see the witness); proved for documents saved by a device whose connections contain no loop."
 },
 "C176": {
  "note": "The code violates it (see the witnesses); proved: after a load the device is locked exactly if the saved one was."
 },
 "C177": {
  "note": "The code violates it (see the witness) as to the connections; proved for the settings."
 },
 "C178": {
  "note": "The code violates it (see the witness); proved for the second pass if every port named is there."
 },
 "C179": {
  "note": "Whatever the outcome of the load."
 },
 "C180": {
  "note": "The hypothesis that dictionaries have distinct keys is what a dictionary is."
 },
 "C181": {
  "note": "The code violates it for empty dimensions and overflow (see the witnesses); proved otherwise."
 },
 "C182": {
  "note": "Both directions, by induction over the tree."
 },
 "C183": {
  "note": "For every built descriptor."
 },
 "C184": {
  "note": "The code violates it for reference domains and metadata (see the witness); proved for the rest."
 },
 "C185": {
  "note": "The code violates it for floating point types (see the witness); proved for the rest, an undefined type aside."
 },
 "C186": {
  "note": "The code violates it in three ways (see the witnesses). Proved: the lists of dimensions and metadata and non-empty fields stay, rules keep their parameters, and a descriptor all of whose parts are frozen shows the same for ever at any depth."
 },
 "C187": {
  "note": "Depth of the document at least that of the record; leaves of documents are read back as written (C86, C87)."
 },
 "C188": {
  "note": "The code violates it (see the witness); proved if names, origins and parameters are there."
 },
 "C189": {
  "note": "Second theorem: at any later time if the parts are frozen."
 },
 "C190": {
  "note": "Any number of calls may be in progress; the third part needs that none is when the iteration begins."
 },
 "C191": {
  "note": "The first part for any interleaving, the second if no other call comes in between."
 },
 "C192": {
  "note": "The code violates it when calls overlap (see the witness); proved when they follow one another."
 },
 "C193": {
  "note": "The code violates it after a stop (see the witness); proved as long as no stop has run."
 },
 "C194": {
  "note": "The code violates it in two ways (see the witnesses); proved when calls follow one another."
 },
 "C195": {
  "note": "By induction over the calls."
 },
 "C196": {
  "note": "The code violates it (see the witness); proved after the result was taken."
 },
 "C197": {
  "note": "The code violates it for the second call (see the witness); proved for the first."
 },
 "C198": {
  "note": "The behaviour of the Taskflow library is assumed as documented. Completeness if orders are only asked for within one graph."
 },
 "C199": {
  "note": "The code violates it in three ways (see the witnesses); proved otherwise."
 },
 "C200": {
  "note": "For all sequences of calls."
 },
 "C201": {
  "note": "The code violates it (see the witnesses); proved for the other calls and states."
 },
 "C202": {
  "note": "For trees with devices in the folders of sub-devices only; C202_shaped shows which histories give such trees."
 },
 "C203": {
  "note": "Same trees as C202."
 },
 "C204": {
  "note": "For all trees."
 },
 "C205": {
  "note": "The code violates it (see the witnesses); proved for a root device whose mode was set once, for all later histories without failing handlers."
 },
 "C206": {
  "note": "For all histories."
 },
 "C207": {
  "note": "The code violates it (see the witness); proved if the handler of the device itself fails."
 },
 "C208": {
  "note": "The code violates it for devices in other folders (see the witness); proved for those in the folder of the sub-devices."
 },
 "C209": {
  "note": "For all histories; the text of the path counts, as in the code."
 },
 "C210": {
  "note": "The code violates it for `addModule` (see the witness); proved for loading."
 },
 "C211": {
  "note": "The code violates it for authenticators that throw (see the witness); proved for those that do not."
 },
 "C212": {
  "note": "Whenever an id is generated (see C213)."
 },
 "C213": {
  "note": "The code violates it (see the witness); proved when no item has the largest number."
 },
 "C214": {
  "note": "For all lists of modules."
 },
 "C215": {
  "note": "The code violates it when a module fails to answer (see the witnesses); proved otherwise."
 },
 "C216": {
  "note": "The code violates it (see the witnesses); proved when one module offers the prefix."
 },
 "C217": {
  "note": "Both directions; values of options are texts."
 },
 "C218": {
  "note": "For configurations that are not made from the default one; values are opaque."
 },
 "C219": {
  "note": "The code violates it (see the witness); the exact precedence is proved."
 },
 "C220": {
  "note": "When devices without manufacturer, serial number or capability have no smart connection strings."
 },
 "C221": {
  "note": "The code violates it (see the witness); proved for manufacturers without an underscore."
 },
 "C222": {
  "note": "For all devices."
 },
 "C223": {
  "note": "The code violates it (see the witness); proved when an address is reachable or at most one has unknown status."
 },
 "C224": {
  "note": "For all outcomes."
 },
 "C225": {
  "note": "For capabilities with different protocols and properties with different names, as lists in the code have."
 },
 "C226": {
  "note": "The code violates it (see the witnesses); proved when the new ids differ."
 },
 "C227": {
  "note": "For all histories."
 },
 "C228": {
  "note": "The code violates it (see the witness); proved for all histories without the removal."
 },
 "C229": {
  "note": "The code violates it (see the witness); proved when no prefix begins with another."
 },
 "C230": {
  "note": "For all histories with distinct connection strings for configuration and streamings and statuses of one type, without interruption of adding."
 },
 "C231": {
  "note": "The code violates it (see the witness); proved for all other ways to fail."
 },
 "C232": {
  "note": "The code violates it (see the witness); proved when nothing happens in between."
 },
 "C233": {
  "note": "For modules that make the streaming they are asked for."
 },
 "C234": {
  "note": "For modules that make streamings of the group of the capability."
 },
 "C235": {
  "note": "The code violates it (see the witness); proved when a module can connect over the most preferred protocol."
 },
 "C236": {
  "note": "For all devices."
 },
 "C237": {
  "note": "The code violates it (see the witness); proved when the first address of the wanted type answers."
 },
 "C238": {
  "note": "For trees in which no two components have the same path; the added component is a device, or there are no devices below it."
 },
 "C239": {
  "note": "For trees in which no two components have the same path and nothing is below signals and ports."
 },
 "C240": {
  "note": "The code violates it (see the witnesses); proved when there are no ports, all signals are new, and with MinHops nothing below the owner is updated."
 },
 "C241": {
  "note": "For all reachable states; expressions `%A` and `switch($C, …)`."
 },
 "C242": {
  "note": "The code violates it (see the witnesses); proved if no property is added that an existing reference, or itself, mentions."
 },
 "C243": {
  "note": "The code violates it (see the witness); proved if no property is added that an existing reference, or itself, mentions."
 },
 "C244": {
  "note": "The code violates it (see the witnesses); proved: when exactly an addition is accepted and which definitions count as owned."
 },
 "C245": {
  "note": "The code violates it (see the witness); proved if no property is added under the name of a removed one."
 },
 "C246": {
  "note": "For all reachable states."
 },
 "C247": {
  "note": "For all states."
 },
 "C248": {
  "note": "For all definitions."
 },
 "C249": {
  "note": "The code violates it (see the witnesses); proved for properties without a description, and that the description is missing or empty."
 },
 "C250": {
  "note": "The code violates it (see the witnesses); proved for defaults of the right type, within the limits and among the selection values, and for the items of containers."
 },
 "C251": {
  "note": "For all arguments, selection values that are no expressions."
 },
 "C252": {
  "note": "For all properties made by any sequence of building, loading and cloning."
 },
 "C253": {
  "note": "The code violates it (see the witnesses); proved for everything else in the property."
 },
 "C254": {
  "note": "For all properties; the property type for those that are built, loaded or cloned, or made with selection values that are no expression."
 },
 "C255": {
  "note": "The code violates it (see the witnesses); proved for values that are no expression and for the first time it is asked for."
 },
 "C256": {
  "note": "The code violates it (see the witnesses); proved that stored containers have the types of the default if those are known."
 },
 "C257": {
  "note": "The code violates it (see the witnesses); proved for Int limits in order of an Int property, and that values within any limits are kept."
 },
 "C258": {
  "note": "For all properties without limits; selection values that are no expression."
 },
 "C259": {
  "note": "For all trees and sequences of calls."
 },
 "C260": {
  "note": "The code violates it (see the witnesses); proved for trees in which nothing is frozen, and that a frozen object refuses."
 },
 "C261": {
  "note": "The code violates it (see the witnesses); proved for any number of sets, also with dotted names, and of clears of values through their own object, made anywhere in the tree."
 },
 "C262": {
  "note": "The code violates it (see the witnesses); proved for ends that succeed in trees in which nothing is frozen."
 },
 "C263": {
  "note": "The code violates it (see the witness); proved for objects in which nothing is read-only, frozen or in an update."
 },
 "C264": {
  "note": "For all trees, calls and sequences of calls."
 },
 "C265": {
  "note": "For all trees and values; dotted names for trees in which nothing is frozen, and for clears in no update."
 },
 "C266": {
  "note": "For all options and providers."
 },
 "C267": {
  "note": "For all options and documents; integers from 2^63 are the subject of C268."
 },
 "C268": {
  "note": "The code violates it (see the witness); proved for documents with integers below 2^63 and distinct names in each object."
 },
 "C269": {
  "note": "For all options and documents with distinct names in each object and integers below 2^63."
 },
 "C270": {
  "note": "The code violates it (see the witnesses); proved for decimal integers, words for truth values, decimal fractions, strings, and that lists and dictionaries are left alone."
 },
 "C271": {
  "note": "The code violates it (see the witness); proved for texts in quotes, decimal integers, words for truth values, and texts without a point that start with nothing a number can start with."
 },
 "C272": {
  "note": "For all options, variables and arguments."
 },
 "C273": {
  "note": "The code violates it (see the witness); proved for any number of arguments of which none names an option inside that of another."
 },
 "C274": {
  "note": "The code violates it (see the witnesses); proved that variables and arguments of another form are not looked at."
 },
 "C275": {
  "note": "The code violates it (see the witness); proved for builders without providers, and that providers have their effect in the order in which they were added."
 },
 "C276": {
  "note": "The code violates it (see the witnesses); proved for all properties without limits whose selection values are no expression, have one type and, in a dictionary, distinct integer keys."
 },
 "C277": {
  "note": "The code violates it (see the witnesses); proved after any write to a property without limits whose selection values are no expression and have one type."
 },
 "C279": {
  "note": "The code violates it (see the witnesses); proved for clearing through the device, and for fields the device does not own."
 },
 "C280": {
  "note": "The code violates it (see the witnesses); proved when the information has no value of its own and belongs to the device before."
 },
 "C281": {
  "note": "The code violates it (see the witnesses); proved for the fields that were set when the configuration was saved."
 },
 "C283": {
  "note": "The code violates it (see the witnesses); proved for the other fields."
 },
 "C284": {
  "note": "The code violates it (see the witnesses); proved for all calls while the name is not locked and nothing is restored or frozen."
 },
 "C286": {
  "note": "The code violates it (see the witnesses); proved for all calls that do not change the protocol of an added capability."
 },
 "C288": {
  "note": "The code violates it (see the witnesses); proved for addresses that differ in more than dots, slashes and brackets."
 },
 "C290": {
  "note": "The code violates it (see the witnesses); proved for documents without clients."
 },
 "C292": {
  "note": "The code violates it (see the witnesses); proved for clients that connect when they are not connected."
 },
 "C293": {
  "note": "The code violates it (see the witnesses); proved for callers that do not change the dictionary they got."
 },
 "C295": {
  "note": "The code violates it (see the witnesses); proved if all local ids differ."
 },
 "C296": {
  "note": "The code violates it (see the witnesses); proved if the configuration has a device and replaces none."
 },
 "C297": {
  "note": "The code violates it (see the witnesses); proved if no other part of the global id is the local id of a replaced device."
 },
 "C298": {
  "note": "The code violates it (see the witnesses); proved if no other connected device matches; what is used matches in any case."
 },
 "C299": {
  "note": "The code violates it (see the witnesses); proved for any number of devices without sub-devices, if the chosen ones are not connected before, differ and have no local ids of devices in the configuration."
 },
 "C300": {
  "note": "The code violates it (see the witnesses); proved if no device is replaced."
 },
 "C305": {
  "note": "The code violates it (see the witnesses); proved for messages without braces."
 },
 "C306": {
  "note": "The code violates it (see the witnesses); proved in release builds if the newest pending error has another code."
 },
 "C308": {
  "note": "The code violates it (see the witnesses); proved if the text was not read before."
 },
 "C309": {
  "note": "The code violates it (see the witnesses); proved for message, source, line and file names that are not empty."
 },
 "C310": {
  "note": "The code violates it (see the witnesses); proved if the last pending error has the code, and in release builds without message."
 },
 "C313": {
  "note": "The code violates it (see the witnesses); the refusal and the pending errors are proved; nothing else changes if a scope exists."
 },
 "C318": {
  "note": "The code violates it (see the witnesses); proved for all sequences, with nested updates, in which interfaces are only removed outside of updates."
 },
 "C319": {
  "note": "The code violates it (see the witness); proved for classes whose chain of parents ends."
 },
 "C322": {
  "note": "The code violates it (see the witness); proved when no single answer fails."
 },
 "C324": {
  "note": "The code violates it (see the witnesses); proved below version 18 (later versions do not read in the producer) for all sequences in which a port is disconnected before it gets another signal, the device does not refuse, its events are handled within the calls, and domain signals stay and have none themselves."
 },
 "C325": {
  "note": "The code violates it (see the witness); proved for the sequences of C324, for all versions from 2 on."
 },
 "C326": {
  "note": "The code violates it (see the witnesses); proved for the sequences of C324, for all versions from 2 on."
 },
 "C327": {
  "note": "The code violates it (see the witness); proved for the sequences of C324."
 },
 "C328": {
  "note": "The code violates it (see the witness); proved when no object with the same id is held."
 },
 "C329": {
  "note": "The code violates it (see the witness); proved when no event is on its way."
 },
 "C333": {
  "note": "The code violates it (see the witnesses); proved for all sequences in which no call fails because of an owner."
 },
 "C337": {
  "note": "The code violates it (see the witnesses); proved for objects that take any owner, while the owner lives, no element is replaced, none is stored twice and the list is not destroyed."
 },
 "C338": {
  "note": "The code violates it (see the witnesses); proved for all failures that are not because of an owner."
 },
 "C341": {
  "note": "The code violates it (see the witness); proved for all zones but those west of Greenwich. What the parser of dates makes of the text is not modelled."
 },
 "C343": {
  "note": "The code violates it (see the witness); proved when tick times numerator is in the range of the type it is computed in."
 },
 "C345": {
  "note": "The code violates it (see the witness); proved for ticks further apart than the error of C344 allows them to meet."
 },
 "C346": {
  "note": "The code violates it (see the witness); proved for all sequences in which every origin is a date."
 },
 "C349": {
  "note": "The code violates it (see the witness); proved when signals are disconnected or replaced only after everything was read."
 },
 "C353": {
  "note": "The code violates it (see the witness); proved for connections and disconnections, and for packets when the callback does not fail."
 },
 "C355": {
  "note": "The code violates it (see the witness); proved when no change of the descriptor waits."
 },
 "C356": {
  "note": "The code violates it (see the witness); proved when nothing waited."
 },
 "C360": {
  "note": "The code violates it (see the witness); proved for messages of all levels below off."
 },
 "C361": {
  "note": "The code violates it (see the witness); proved when the own variable is not a number above all levels."
 },
 "C366": {
  "note": "The code violates it (see the witness); proved when an encoding was given or no id was."
 },
 "C367": {
  "note": "The code violates it (see the witness); proved for names without slashes."
 },
 "C371": {
  "note": "The code violates it (see the witness); proved that at most one more call begins."
 },
 "C372": {
  "note": "The code violates it (see the witnesses); proved for the delays -1 and above."
 },
 "C373": {
  "note": "The code violates it (see the witness); proved for the thread that begins next."
 },
 "C376": {
  "note": "The code violates it (see the witness); proved when only addresses asked answer, and each at most once."
 },
 "C377": {
  "note": "The code violates it (see the witness); proved when none were found before and only addresses asked answer with the identifier of the process."
 }
}