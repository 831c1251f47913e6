# Formal model of openDAQ in Lean 4: design

The source under study is in `/repo` (C++). Nothing is compiled from it: the model is
hand-written Lean 4 that follows the C++ function by function, each definition citing the file
and lines it models. Line numbers refer to the pinned commit.

## Layout

```
lean/Verif/<Area>/Model.lean   definitions transcribed from the code, with citations
lean/Verif/<Area>/Spec.lean    small independent specification (no model helpers where avoidable)
lean/Verif/<Area>/Lemmas.lean  helper lemmas (not claims)
lean/Verif/<Area>/Props.lean   the property theorems, each with a non-vacuity `example`
```

## Method

* Every stateful object is `init` plus `step : State → Op → State × Out`, a total computable
  function; properties quantify over all finite `List Op` histories and are proved by induction.
* Public methods of the modelled classes take the object's mutex for their whole body, so a
  concurrent execution of them is some sequential history; that is the sense in which "all
  interleavings" is covered. Where the code releases a lock in between, the model has separate
  steps for the two critical sections.
* Undefined behaviour and thrown exceptions are distinct outcomes, never totalised away.
* If the code contradicts a property, the negation is proved with a concrete witness
  (`…_violation`), the strongest true part is proved with the suffix `_partial`, and the
  disagreement is listed below under "Findings".
* Wrong-program tests: see the section below and `seeded/LOG.jsonl`.

## Trusted base

* Lean 4.33.0 kernel. Axioms used by any theorem: at most `propext`, `Classical.choice`,
  `Quot.sound` (checked with `#print axioms`). No `sorry`, `admit`, own `axiom`,
  `native_decide`, `bv_decide`, `implemented_by`, `unsafe`.
* The transcription from C++ to Lean is by hand and is trusted. Per-area simplifications are
  stated in the comments of the definitions.
* Common simplifications: reference counting, COM-style pointers, error-info text, logging and
  memory exhaustion are not modelled. `size_t`/`Int` counters are unbounded `Nat`/`Int` unless a
  property is about width (then `BitVec`/`UInt` or explicit modulus is used).

## Wrong-program tests

Each line of `seeded/LOG.jsonl` is one edit of a model definition, tried in a scratch copy. Two kinds of
evidence are recorded and they mean different things:

* `theorems_failed`: theorems whose proofs no longer check. Most are helper lemmas, since the build stops
  there. This shows only that the proofs depend on the edited line. It does not show that a property
  theorem became false: edits that break no claim (marked `none (control…)`) make helper lemmas fail too.
* `statements_refuted`: property theorems whose *statement*, evaluated on the edited model over a few
  thousand pseudo-random histories, has a counterexample. This is what shows that the statement excludes
  the wrong program. On the unedited model the same evaluation finds no counterexample. The evaluation is a
  test, used only to judge the statements; no claim rests on it. The evaluating programs are scratch files
  outside the repository.

An edit that breaks a claim and refutes no statement is a gap in the statements; `theorems_tightened` names
what was added or strengthened. So far: `C08_cacheable_iff` (nothing said which buffers are cacheable) and
`C10_threshold` (data packets were left out).

## Findings

Places where the code contradicts a property as a user would state it. Each has a machine-checked witness.

| property | finding | witness |
|----|----|----|
| C03 | `dequeueAll`/`dequeueUpTo` leave the gap counter, so events are reported in an empty queue | `C03_violation_gap_dequeueAll` |
| C03 | events other than descriptor changes and gaps are counted when enqueued, not when dequeued | `C03_violation_otherEvent` |
| C04 | a gap packet submitted in a batch is not counted, so the sample count runs past it | `C04_violation_externalGap` |
| C06 | after `dequeueAll` reports no more packets the next packet does not schedule the listener | `C06_violation_dequeueAll` |
| C07 | a batch on an inactive port drops events, which single enqueueing accepts | `C07_violation_batch` |
| C08 | with a cacheable limit near 2^32 the 32-bit buffer size wraps and raises the linear caching error | `C08_violation_size_wrap` |
| C47 | a value packet waiting for its domain packet is delivered after, and with, a later descriptor | `C47_violation_reordered` |
| C12 | a waiting packet sent again with the release mark is referenced by the client for ever | `C12_violation_handed_over` |
| C14 | an empty JSON text can be sent but is refused by the receiver; 65536 versions are announced as none | `C14_violation_empty_json`, `C14_violation_all_versions` |
| C15 | parsing a protocol info reply trusts its version count and reads past the block | `C15_violation_info_reply`, `C15_info_reply_iff` |
| C16 | a rejected protocol upgrade is adopted by the server all the same | `C16_violation_rejected` |
| C17 | packet headers shorter than their type needs, and event texts without terminator, are read past their end | `C17_violation_short_header`, `C17_violation_event_text` |
| C17 | header plus payload size wraps in 32 bits: a packet of nearly 2^32 bytes is announced as empty | `C17_violation_size_wrap` |
| C18 | a subscription made without a streaming request survives the disconnection of the client | `C18_violation_stale_subscription` |
| C19 | such a first subscriber has no packet server: every publish throws, also for the other subscribers | `C19_violation_unregistered_subscriber` |
| C49 | cacheable payload limit and release threshold are exchanged in `handleStreamingInit` | `C49_violation_swapped` |
| C50 | a client can withdraw a signal announced by another client | `C50_violation_foreign_withdrawal` |
| C22 | reading one sample of a constant rule packet by index returns the value one position earlier | `C22_violation_single_at_change`, `C22_violation_last_at_change` |
| C22 | a change position past the sample count makes reading the packet write past its buffer | `C22_violation_write_past_end`, `C22_bounds_iff` |
| C51 | explicit rule with reference domain offset: the value by index is memory nobody wrote | `C51_violation_explicit_reference_offset` |
| C51 | float sample types with reference domain offset pass validation, reading them throws | `C51_violation_float_offset_accepted`, `C51_violation_float_zero_offset` |
| C51 | packets of custom rules have samples but no memory; reading by index dereferences null | `C51_violation_other_rule` |
| C52 | sizes wrap in 32 bits: 2^29+1 samples of 8 bytes get 8 bytes | `C52_violation_size_wraps` |
| C52 | raw samples written after the first read are ignored when scaled, used when not | `C52_violation_stale_after_write` |
| C52 | reusing a constant rule packet reads an uninitialised size | `C52_violation_reuse_of_constant` |
| C23 | The stream reader ignores the error code of `readPacketData`. Data before the first value descriptor: the read never returns. `readWithDomain` on a packet whose domain packet is missing or too short: the values of the packet are written but the remaining count is not reduced, so the read writes the packet again and again past the end of the buffer. | `C23_violation_noDescriptor`, `C23_violation_missingDomainPacket` |
| C25 | With skipEvents a queued inconvertible descriptor ends the read early, but `getAvailableCount` counts the samples behind it. After an event that is neither a descriptor change nor a gap the reader is never empty again. | `C25_violation_inconvertible`, `C25_violation_neverEmpty` |
| C53 | The wait condition subtracts the buffered samples from the requested ones as unsigned numbers: a request for fewer samples than are buffered waits for the whole timeout. In Any mode buffered samples are not looked at. | `C53_violation_underflow`, `C53_violation_any` |
| C26 | Tail reader: with skipEvents two descriptor events in one read make the cached sample count wrap below zero, later reads return nothing. A queued event other than a descriptor change makes every later read fail, the samples behind it are never returned. A missing domain packet fails the read for good. | `C26_violation_skipEvents`, `C26_violation_gap`, `C26_violation_noDomainPacket` |
| C27 | Block reader: an overlap of more than half a block moves an iterator before the first packet; packets of different sizes with overlap lose samples (`rewindQueue` subtracts the size of the wrong packet); an empty data packet divides by zero; a read that finds part of a block makes the next read write more than the buffer holds; `getAvailableCount` misses samples in buffered packets. | `C27_violation_overlapAboveHalf`, `C27_violation_packetSizes`, `C27_violation_emptyPacket`, `C27_violation_bufferOverrun`, `C27_violation_underreported` |
| C29 | `isAuthorized` with a mask of several bits is satisfied by any one of them (and refused by any one denied). | `C29_decision` (specification `Authorized`) |
| C30 | Destroying an owner leaves the permissions inherited from it in force until the next change. An ownership cycle makes the update recurse without end. | `C30_violation_ownerDestroyed`, `C30_violation_cycle` |
| C31 | `lock` compares users by content, `unlock` by object identity: a second object of the same user cannot unlock but can take over the lock, after which the first cannot unlock. | `C31_violation_equalUsers` |
| C54 | Failed calls are not undone exactly: a failed `lock` unlocks devices the caller had locked before; a failed `unlock` may leave the device itself unlocked, and may turn an anonymous lock into one of the caller. | `C54_violation_lostLock`, `C54_violation_halfUnlocked`, `C54_violation_newOwner` |
| C32 | A user configured with empty name and password hash authenticates with empty credentials and counts as anonymous although anonymous access is not allowed. A null character in a JSON text cuts off the name or password hash. A JSON document that is not an object is undefined behaviour (only an assertion). | `C32_violation_emptyUser`, `C32_violation_nullCharacter`, model `loadJson` |
| C33 | Ratios of equal value with denominators of different sign compare unequal (`1/-2` and `-1/2`). | `C33_violation_sign` |
| C33 | A ratio containing the smallest 64-bit integer can be constructed, but `simplify` and `equals` call `std::gcd` outside its domain: undefined behaviour. | `C33_violation_smallest` |
| C55 | Products are formed before reduction, so they overflow (undefined behaviour) even when the result is representable. | `C55_violation_unreduced` |
| C34 | `idEndsWith` compares characters, not path segments: `/a/xb` ends with `b`. | `C34_violation_endsWith` |
| C35 | Local ids with a slash are accepted when there is no logger component, and a component may be added to a folder other than its parent; such components cannot be found by their global id. | `C35_violation_notFound` |
| C56 | The root does not find itself by its own global id, and other components cannot resolve any global id. | `C56_violation_globalId` |
| C57 | `removeItem` looks only at the local id and removes another component of the same id; removing a component directly leaves a stale entry in its folder; a folder added to itself uses its items after they are freed. | `C57_violation_otherItem`, `C57_violation_stale`, `C57_violation_self` |
| C58 | A component added after its parent was deactivated stays active; a component removed directly makes a later `setActive` of its folder fail midway, leaving its later siblings as they were. | `C58_violation_late`, `C58_violation_removedItem` |
| C38 | The change event of a status named `Message` carries the message under the same key and loses the value. `addStatus` raises no event: a client never learns of the new status and rejects later changes to it. | `C38_violation_message`, `C38_violation_added` |
| C36 | The check runs only in `connect`: a listener set later on a connected port closes a cycle unnoticed. A connection refused by the listener has already replaced the old one. | `C36_violation_setListener`, `C36_violation_lostConnection` |
| C39 | `clearPropertyValues` skips the properties of the class: their values stay. | `C39_violation_clearAll` |
| C40 | The validator and the selection list are asked before coercion and limiting: the stored value may satisfy neither. A local property added under the name of a class property takes over its value unchecked. | `C40_violation_validator`, `C40_violation_selection`, `C40_violation_shadow` |
| C41 | Inside an update a public set of a read-only property is accepted; it is refused only at the end of the update, together with everything recorded after it. | `C41_violation_batch`, `C42_violation_lost` |
| C42 | The first recorded call that fails ends the update: the calls after it are lost although each returned success. | `C42_violation_lost` |
| C44 | A handler that keeps writing different values overflows the stack; an exception from a handler of the class or of the whole object leaves the written value in the update stack, where it is read back although it was never stored; an inner write whose handler fails makes the outer set succeed without storing anything; the change event of a replaced value carries the value before coercion. | `C44_violation_restless`, `C44_violation_residue`, `C44_violation_lost`, `C44_violation_event` |
| C45 | The parser stops after the first complete expression: whatever follows it is ignored without an error (`1 2` is 1). A string that is not closed is dropped together with the rest of the text. A character outside ASCII after a word or number is passed as a negative `char` to `std::isalnum`/`std::isdigit`, which is undefined. | `C45_violation_trailing`, `C45_violation_unclosed`, `C45_violation_high` |
| C59 | A packet of no bytes (zero samples) whose release comes after the buffer has filled up clears the mark for a full buffer: the next packet lies over an existing one. The size of a packet is computed modulo 2^64, so a request for 2^61 samples of eight bytes succeeds with no memory behind it. | `C59_violation_empty`, `C59_violation_overflow` |
| C60 | `getAvailableSampleCount` subtracts the reading position where the writing position is meant: after a first packet of 15 bytes it reports 20 of 20 bytes although 6 are refused. | `C60_violation_available` |
| C61 | Packets released out of order around the end of the buffer leave an entry behind that is never reached: the memory is lost for good, and a resize waits for ever. An empty buffer refuses a packet larger than the larger side of its position. A packet of no bytes makes an empty buffer full. | `C61_violation_order`, `C61_violation_forever`, `C61_violation_half`, `C61_violation_full` |
| C62 | Synchronisation assumes that every resolution is a whole multiple of the finest: with 1/2 s and 1/3 s the distance of samples is truncated, and samples beyond the end of the packet are read. Ticks go through `double`: with nanoseconds since 1970, samples before the start are delivered at 1 kHz, and at 10 MHz the packet holding the start is thrown away. If a signal leaves out the start, nothing is read from then on and its packets are lost. A start found earlier is kept as a number of ticks when the resolution changes. `getIsSynchronized` only says that a start is known. | `C62_violation_beyond`, `C62_violation_early`, `C62_violation_lost`, `C62_violation_gap`, `C62_violation_stale`, `C62_violation_synchronized` |
| C63 | The number of common samples to read is limited to what is available without rounding to the multiple all rates have in common: with 2 Hz and 3 Hz a read of 6 gives 4, and the signals are apart from then on. `skipSamples` does not round at all. A required common rate that is no multiple of the rate of a signal is accepted. | `C63_violation_apart`, `C63_violation_skip`, `C63_violation_rate` |
| C64 | 0 is reported as available when a packet was read to its end although more packets are queued. A read of 0 samples with a minimal count above 1 can hang while holding the locks. `sampleRateDivider` is not initialised; a reader whose signals sent no domain descriptor divides by it. | `C64_violation_zero`, `C64_violation_hang`, `C64_violation_divider` |
| C65 | A reader that became invalid writes samples into the buffers of an earlier call. A read of 0 samples writes samples when the minimal count is above 1. `readWithDomain` with count 0 and null pointers crashes, and it loses the event of a reader that became invalid. | `C65_violation_earlier`, `C65_violation_zero`, `C65_violation_null`, `C65_violation_event` |
| C71 | A connection that the listener of a port refuses ends the connection the port had before, without a core event and without telling the listener. | `C71_violation_refused` |
| C72 | A signal that gets another domain signal while somebody listens sends no event; nor when its domain signal is removed. A new descriptor of the domain signal is not announced to a signal that is not active, not even when it becomes active again, although its own descriptor is announced regardless. | `C72_violation_domain`, `C72_violation_removed`, `C72_violation_inactive` |
| C69 | `sendPackets` looks only at the last packet of the list: if that is an event or has no samples, the last value stays the old one although newer samples were delivered. | `C69_violation_list` |
| C70 | The buffer of the last value has the size of a scaled sample, but the raw sample is copied into it: a scaling from `Int64` to `Float32` writes four bytes past its end. `getValueByIndex` reserves its buffer in the same way. | `C70_violation_scaled` |
| C78 | `ObjectPtr<T>::operator=(const ObjectPtr<U>&)` (objectptr.h:1519-1530) releases its object before it converts the other one. If the conversion throws (`NoInterfaceException`), the variable still holds the pointer it has released and releases it again: use after free. | `C78_violation_conversion` |
| C78 | `ObjectPtr<T>::operator=(ObjectPtr<U>&&)` (objectptr.h:1534-1551) is `noexcept` but converts: moving a pointer of the wrong type ends the program. | `C78_violation_terminate` |
| C78 | Assignments release before they add a reference (objectptr.h:1484-1499, 1554-1563): assigning a view, or the interface pointer, of the object a variable is the only owner of destroys the object first. | `C78_violation_own_view`, `C78_violation_own_raw` |
| C78 | `ObjectPtr<T>::operator&` (objectptr.h:2091-2101) does not reset `borrowed`: an object returned through an out parameter on a borrowing pointer is never released. | `C78_violation_out_param` |
| C80 | `equals(nullptr)` of numbers, booleans and complex numbers dereferences the argument (ordinalobject_impl.h:92, complex_number_impl.cpp:71-90); lists with null elements crash in `equals` (listobject_impl.cpp:140). | `C80_null_violation`, `C80_null_item_violation` |
| C80 | `StringImpl::equals` (stringobject_impl.cpp:100-107) passes its own null pointer to `strcmp` when the other string is empty, and ignores what follows a zero character. | `C80_null_string_violation`, `C80_zero_violation` |
| C82 | Ratios, lists and dictionaries override `equals` but not `getHashCode`, which stays the address: as dictionary keys equal values are different keys. | `C82_ratio_violation` |
| C82 | `DictImpl::hasKey(nullptr)` (dictobject_impl.cpp:173-178) calls `equals` on null when a key has hash code 0; the hash code of a negative, huge or not finite float is an undefined cast (ordinalobject_impl.h:133). | `C82_null_violation`, `C82_float_violation` |
| C85 | `ComplexNumberImpl::compareTo` (complex_number_impl.cpp:150-157) reads its own value instead of the other one: complex numbers always compare as equal. | `C85_complex_violation` |
| C85 | `compareTo` converts the other value to the own type (ordinalobject_impl.h:202-212): 1 compared with 1.5 is equal, 1.5 compared with 1 is greater; false compared with 256 is equal; not-a-number is equal to everything. | `C85_mixed_violation`, `C85_bool_violation`, `C85_nan_violation` |
| C87 | `DictImpl::serialize` does not look at the error of serializing a key (dictobject_impl.cpp:449): success is reported for text that is not JSON. | `C87_key_violation` |
| C87 | Reading JSON changes values without an error: strings end at the first zero character (json_deserializer_impl.cpp:98), complex numbers with an integer part become 0 (complex_number_impl.cpp:181), entries with a null key disappear (dictobject_impl.cpp:529), a malformed identifier is half taken over (util.cpp:98-117). | `C87_zero_violation`, `C87_complex_violation`, `C87_null_key_violation`, `C87_id_violation` |
| C87 | A tagged list without `values` throws out of the deserializer instead of returning an error (listobject_impl.cpp:514-518). | `C87_throw_violation` |
| C89 | `JsonSerializedList::readString`, `readList` and `readSerializedObject` report success for null without moving on (json_serialized_list.cpp:60-64, 95-99, 132-136); `readInt` refuses integers of more than 32 bits (json_serialized_list.cpp:168), which `JsonSerializedObject::readInt` accepts. | `C89_null_violation`, `C89_int_violation` |
| C91 | `daqBulkCreateDataPackets` aligns buffers relative to what `malloc` returned (bulk_data_packet.cpp:122-145), so `dataAlign` above 16 is not met. | `C91_align_violation` |
| C91 | Domain descriptors with different rules are refused in debug builds only (bulk_data_packet.cpp:104-120); a release build makes domain packets with a null pointer and a size. | `C91_mixed_violation` |
| C91 | The buffer of an explicit domain has 8 bytes per sample whatever the sample size (bulk_data_packet.cpp:133-137, 181-182): the samples of a domain descriptor with dimensions overlap the values. | `C91_overlap_violation` |
| C93 | The destructors run only when all packets of the block are released (bulk_data_packet.cpp:48-79), so destruct callbacks come late. | `C93_late_violation`, `C93_domain_violation` |
| C96 | `EventImpl::trigger` walks the handlers by index (event_impl.cpp:102-111): a handler that removes itself, or an earlier one, makes the event skip the next subscriber. | `C96_skip_violation` |
| C96 | The event keeps the only reference to a handler and does not hold one during the call (event_impl.cpp:106): a handler that unsubscribes itself is destroyed while it runs. | `C96_destroyed_violation` |
| C96 | Handlers added during a `trigger` are called by the same `trigger`, which need not return. | `C96_endless_violation` |
| C97 | Handlers made from callable objects are identified by the address of the temporary they were made from (delegate.hpp:473-481): removing one may remove another, and a copy is never found, with success reported. | `C97_temporary_violation`, `C97_copy_violation` |
| C99 | `NotSearchFilterImpl::visitChildren` returns true and drops the answer of the inner filter (coretypes search_filter_impl.cpp:84-90), although the documentation says the answer is not negated: a recursive search with a negation enters components the inner filter would not enter. | `C99_violation_not_enters`, `C99_violation_search` |
| C103 | `getFunctionBlocks(Recursive(f))` of a device lists its own function blocks and those of sub-devices only (device_impl.h:877-895): function blocks inside function blocks and channels are left out, unlike signals. | `C103_violation_device_nested`, `C103_violation_device_channel` |
| C103 | `getFunctionBlocks(Recursive(f))` of a function block lists the folder of function blocks with the recursive filter and casts every result to a function block (function_block_impl.h:391-392): as soon as there is a nested function block, its folders and signals are among the results and the call throws. | `C103_violation_throws` |
| C107 | The domain signal of a connected mirrored signal can be replaced (a configuration client follows the device, config_client_signal_impl.h:223-227) without a new subscription: the new domain signal is not asked for; the later unsubscription stops at the new domain signal with an error (streaming_impl.h:606-638), so the server goes on sending the signal although nothing is connected. | `C107_violation_domain_replaced` |
| C107 | `onListenedStatusChanged` sets `listened` before subscribing and leaves it set when that fails (mirrored_signal_impl.h:483-499): the connection fails, and a later connection that succeeds does not subscribe, so no data ever arrive. | `C107_violation_failed_connection` |
| C107 | `subscribeSignal` does not undo the subscription of the domain signal when the one of the signal fails (streaming_impl.h:517-549), and the count stays raised. | `C107_violation_failed_request` |
| C107 | `removeStreamingSource` takes the source off the list before it unsubscribes (mirrored_signal_impl.h:288-339): when the domain signal was removed first, the unsubscription fails and the source stays active without being listed. | `C107_violation_domain_removed_first` |
| C107 | Ids are matched by their ending: when one id on offer is an ending of another, the first match is taken (streaming_impl.h:829-844) and the server may be asked for the data of another signal. | `C107_violation_similar_ids` |
| C109 | An event of a value signal changes the descriptor of its mirrored domain signal and ignores whether the event should be passed on (mirrored_signal_impl.h:152-159): the domain signal's own event that follows tells nothing new and is dropped, so connections of the domain signal never learn the descriptor. | `C109_violation_value_first` |
| C109 | A connection fills a missing descriptor from the configuration without telling the connections that exist (mirrored_signal_impl.h:635-669); the event of the server with the same descriptor is then dropped. | `C109_violation_second_connection` |
| C109 | A domain descriptor that goes missing is passed to the domain signal as `nullptr`, which means no change (mirrored_signal_impl.h:156), instead of `NullDataDescriptor`. | `C109_violation_missing` |
| C111 | A batch (`beginUpdate` … `endUpdate`) with a refused value stops in the middle: earlier values stay on the server and no `PropertyObjectUpdateEnd` event is triggered (property_object_impl.h:2750-2780), so clients keep the old values. | `C111_violation_refused_value` |
| C111 | The values of a batch are collected right after each write: if the handler of a later one sets an earlier property, the event of the batch, which comes last, carries the old value and clients show that. | `C111_violation_handler` |
| C111 | A default value is not validated; a batch that clears such a property is sent as a value, which the client refuses, and with it the rest of the batch. | `C111_violation_default` |
| C112 | Stored values are deserialized in the order of their names as if a user had set them (property_object_impl.h:3364-3388): a limit that depends on a property set later (`%B`) is the default one, the value is refused and the whole connection fails. The same happens when a configuration is loaded. | `C112_violation_dependent_limit` |
| C112 | For the same reason a coercer that is not idempotent is applied again on the client, which then shows another value. | `C112_violation_coercer` |
| C112 | Notifications that arrive between the serialization of the tree and `acceptNotificationPackets` are thrown away (native_device_impl.cpp:379-390). | `C112_violation_early_event` |
| C113 | When an updated component has a child with a property that is new, `addProperty` of the child sends a request to the server and fails; the child is not updated at all and the error is not looked at (config_client_folder_impl.h:234-299). | `C113_violation_child_property` |
| C113 | `onRemoteUpdate` of a component does not update its tags (config_client_component_impl.h:279-315). | `C113_violation_tags` |
| C113 | `updatePropertyValues` sets the values one after the other, so a limit that depends on a later property is the old one; the error leaves `componentUpdateEnd` before core events are enabled again and before the component is marked complete (config_client_component_impl.h:318-343). | `C113_violation_dependent_limit` |
| C115 | `clearPropertyValue` of a nested object of a client sends the name of the property without the path (config_client_property_object_impl.h:303-314): the property of the same name of the component is cleared. | `C115_violation_clear_nested` |
| C115 | Nested objects of a client are never marked complete (config_client_property_object_impl.h:1082-1085): `setProtectedPropertyValue` and `clearProtectedPropertyValue` change only the client. | `C115_violation_protected_nested` |
| C116 | `addStatus` triggers no event (component_status_container_impl.h:147-175): clients never get a status that is added later, and its later changes fail there. | `C116_violation_status_added` |
| C116 | The event for the local active state is called "LocalActive" while the locked attribute is called "Active" (config_client_component_impl.h:346-392): a client with a locked active state misses changes of components below an inactive one. | `C116_violation_active_locked` |
| C80 | A dictionary that holds null under a key crashes when it is compared with a dictionary that holds a number under that key: the comparison asks the null value whether it equals the other. | `C80_null_value_violation` |
| C119 | A field with an enumeration type takes a value of any other enumeration type: only the core type is compared (struct_impl.h:129-135). | `C119_violation_enum` |
| C119 | Default values of struct types are not checked against the types of the fields (struct_type_impl.cpp:13-37); structs get them without a check. | `C119_violation_default` |
| C119 | A struct type may have two fields of the same name; its structs have one (struct_type_impl.cpp:13-37). | `C119_violation_twice` |
| C119 | The dictionary of the caller is completed in place before it is checked (struct_impl.h:106-137), so a refused creation leaves default values in it; a creation that succeeds freezes it (struct_impl.h:170), and the frozen dictionary cannot be used for another struct that lacks a field. | `C119_violation_dictionary`, `C119_violation_frozen` |
| C120 | Equality of structs compares the lists of field names and values in the order in which they were given (struct_impl.h:246), so equal structs compare as different. | `C120_violation_order` |
| C120 | Comparing two structs of which one holds null where the other holds a number dereferences null (listobject_impl.cpp:107-148); the same happens for default values when a type manager compares a new type with the one of the same name. | `C120_violation_null`, `C120_violation_type` |
| C122 | `StructBuilder::set` with null stores null; the default value that is looked up before (struct_builder_impl.cpp:81-95) is not used. | `C122_violation_null` |
| C122 | `StructBuilder::setFieldValues` reads every value as a string (struct_builder_impl.cpp:52), so it fails for fields of other types. | `C122_violation_values` |
| C122 | `build` freezes the dictionary of the builder: later calls of `set` fail. | `C122_violation_build` |
| C122 | A field of undefined type takes any value when a struct is created but none in a builder. | `C122_violation_undefined` |
| C123 | `EnumerationType` from a list of names counts one past the last value; with a last value of 2^63−1 this is signed overflow (enumeration_type_impl.cpp:27-38). | `C123_type` (the bound is strict) |
| C124 | A type manager with a struct type that has a ratio or a complex number among its fields cannot be deserialized: the types of fields are added to the manager, and these names are reserved. | `C124_violation_ratio` |
| C124 | After deserialization the simple types of fields ("int", "float", …) are types of the manager. | `C124_violation_simple` |
| C124 | When a type that another one contains was removed and replaced, the manager cannot be deserialized. | `C124_violation_replaced` |
| C124 | An empty list of default values is not serialized (struct_type_impl.cpp:133); the type that is read back is not equal. | `C124_violation_empty` |
| C126 | A struct that holds a default value of a wrong type cannot be deserialized. | `C126_violation_default` |
| C126 | Deserializing a struct whose type is unknown registers a type that is derived from the values: null fields become undefined, default values are lost. | `C126_violation_removed` |
| C128 | A class may be added before its parent and a parent may be removed before its children, although the documentation of the type manager forbids both: `addType` and `removeType` (type_manager_impl.cpp:31-95) check neither. Parents are looked up by name at each call (property_object_class_impl.cpp:43-74), so removing one makes existing objects lose properties. | `C128_violation_child_first`, `C128_violation_parent_removed` |
| C128 | Two classes that are each other's parents recurse without end in every lookup. | `C128_violation_cycle` |
| C129 | Without a custom order a class lists an overridden property twice (property_object_class_impl.cpp:146-167). | `C129_violation_twice` |
| C129 | While a configuration is loaded, the overridden property of the ancestor is used instead of the one of the class, because the map keeps the first value (property_object_impl.h:2441-2447). | `C129_violation_update` |
| C132 | The check for reference properties with a common target is done when a property is added, not when the parent is set; set after it, the class has two reference properties for one target. | `C132_violation_parent` |
| C133 | The custom order of a class is not serialized: inherited properties are listed in another order after reading. | `C133_violation_order` |
| C133 | A manager whose class has a reference property and stands before its parent cannot be deserialized. | `C133_violation_reference` |
| C133 | Classes are compared by identity, so a class cannot be deserialized with a manager that has it already, although the documentation of `addType` accepts equal types. | `C133_violation_again` |
| C136 | `SetOperationMode` and `SetOperationModeRecursive` do not ask for the kind of client (config_server_device.h:289-321): a view-only client whose user may write switches the operation mode. | `C136_violation_view_only` |
| C136 | `ChangeInputPortStreamingSource` asks for nothing at all (config_protocol_server.cpp:503-528): view-only clients, users without permission and locked devices are let through. | `C136_violation_view_only`, `C138_violation_lock`, `C140_violation_permissions` |
| C138 | The operation mode of a locked device can be switched (config_server_device.h:289-321). | `C138_violation_lock` |
| C138 | Only the nearest device is asked for its lock (config_server_access_control.h:75-102): a locked device is removed through the device above it. | `C138_violation_lock` |
| C140 | Requests with a path to a nested object ask for the permissions of the component only (config_server_component.h:255-312, 337-376): a user without permission on the nested object clears and updates it. | `C140_violation_permissions` |
| C140 | The edits sent with `EndUpdate` may name nested properties, whose holder is not asked (config_server_component.h:378-395). | `C140_violation_permissions` |
| C140 | `RemoveExternalSignals` asks for no permission (config_protocol_server.cpp:530-537). | `C140_violation_permissions` |
| C140 | `SetOperationModeRecursive` does not ask for the permissions of mirrored devices, and leaves the devices before a denied one switched (config_server_device.h:299-321). | `C140_violation_permissions` |
| C143 | `GetPropertyValue` and `CallProperty` read the property before they ask for the permission (config_server_component.h:68-72, 221-225). | `C143_violation_getter_runs` |
| C144 | `SetProtectedPropertyValue` turns the value into text (config_server_component.h:99-118). | `C144_violation_names` |
| C144 | A property whose name contains "DaqDeviceInfo" anywhere is taken for one of the device info (config_server_component.h:397-406). | `C144_violation_names` |
| C144 | A function of the device info that is not declared constant cannot be called: the lock check asks the device info to be a component (config_server_component.h:240). | `C144_violation_names` |
| C147 | If a handler puts another value in place of the written one, the core event carries that value before coercion and limits (property_object_impl.h:760-773, 1171-1187): the property has the value 10 while the event tells 20. | `C147_violation_replaced` |
| C150 | A client may announce its kind again after it is connected (native_streaming_server_handler.cpp:456-566 has no check), while the counters are decremented by the kind it has when it leaves (706-717). A view-only client that announces ExclusiveControl and leaves takes away the exclusive control of another client (a third client gets control beside it), or makes the counter wrap to 2^64-1, after which no client gets control of the server any more. A control client that announces ViewOnly and leaves blocks exclusive control for good. | `C150_violation_lost`, `C150_violation_locked`, `C150_violation_stuck` |
| C151 | A client that announces Reconnected with the ClientId of another client ends that client's session (498-507); the users of the two are not compared. | `C151_violation_user` |
| C153 | A session that uses both the configuration and streaming is listed twice as connected client, but only one entry is removed when it leaves (native_streaming_server_impl.cpp:352-388: the second entry is not registered). A session that announces another ClientId after it is connected stays listed. | `C153_violation_both`, `C153_violation_renamed` |
| C154 | A streaming client that announces another ClientId stays registered under the old id when it leaves; after that every added signal is an exception (sessionHandlers.at, native_streaming_server_handler.cpp:114). | `C154_violation_renamed` |
| C155 | A client may announce a ClientId of the form AssignedByServer/n. If n is the next number, the next connection gets no session: insert does not replace (953), the new handler is destroyed at once and the client waits for an answer. | `C155_violation_taken` |
| C156 | StreamingPacketReleaseThreshold and StreamingCacheablePayloadSizeMax are interchanged: handleStreamingInit gives the size first (native_streaming_server_handler.cpp:747-748), registerClient takes the threshold first (streaming_manager.cpp:277-278). | `C156_violation_swapped` |
| C157 | A second request for streaming in a session, and Reconnected with the session's own ClientId, are exceptions out of the handler of the transport (streaming_manager.cpp:286, native_streaming_server_handler.cpp:530). | `C157_violation_init`, `C157_violation_self` |
| C162 | Events are collected in a list that is serialised as a whole (config_protocol_server.cpp:243-262, 740-750). Callable parameters are only noticed at the top level (625-635), so an event with a function inside a dictionary (PropertyObjectUpdateEnd after an update that sets a function property, property_object_impl.h:3630-3650) cannot be serialised, and all events that were collected with it, also those of other components, are lost without a trace for the client. | `C162_violation_neighbours` |
| C163 | Core events are forwarded without a check of the permissions of the client's user (config_protocol_server.cpp:557-586): values of properties of components that may not be read are sent. | `C163_violation_unreadable` |
| C165 | An upgrade to a version the server does not support is answered with failure but applied (config_protocol_server.cpp:290-297, 729-738); a refused version below 11 also replaces the serializer of notifications for good. | `C165_violation_refused`, `C165_violation_format` |
| C166 | The id of an external signal is noted as the client's own before it is added to the folder (config_protocol_streaming_consumer.cpp:140-155). If that fails because another client has a signal with that id, the client is not told of that client's signal any more. | `C166_violation_refused` |
| C169 | Values are written one by one in the order of the properties (property_object_impl.h:3659-3695), each checked against the bounds as they are then. A value whose bound is a property further down, which the document changes too, is refused, although device and document are the same: an object cannot load what it saved. | `C169_violation_order` |
| C172 | `onUpdatableUpdateEnd` of a port returns if it is connected (input_port_impl.h:763-767). Ports of built-in function blocks keep their connection when a configuration is loaded that connects them to another signal, or to none; success is reported. | `C172_violation_kept`, `C172_violation_not_disconnected` |
| C173 | `updateInputPort` updates a port that is made for the occasion (function_block_impl.h:290-298) and `updateObject` of ports does not call its base class, so active state, visibility, name and description of ports are saved but not restored. Tags are saved and not restored either (component_impl.h:1232-1270). | `C173_violation_lost` |
| C174 | A load that fails has removed all added function blocks and their connections before, and stops at the first refused value (signal_container_impl.h:653-699, 800-860); the second pass, which makes the connections, is left out (component_impl.h:1002-1008). | `C174_violation_lost`, `C174_violation_half` |
| C175 | `resolveSignalDependency` ends the update of the function block that owns the signal before the entry of the waiting function block is removed (component_update_context_impl.h:294-333; function_block_impl.h:301-345). A document in which two function blocks are connected to each other makes them call each other without end; the check for cycles would only come afterwards. | `C175_violation_cyclic` |
| C176 | The user lock is part of the configuration (device_impl.h:2062-2063). Loading unlocks a locked device or locks one that is not, and a lock comes back without its user, since the user is only looked up with a deserialization context (user_lock_impl.cpp:84-113); then any user may unlock the device. | `C176_violation_unlocks`, `C176_violation_anyone` |
| C177 | Connections are saved with the full path of the signal. In a device with another local identifier the signals are not found and the connections are left out without an error. | `C177_violation_other_id` |
| C178 | A connection to a port the function block does not have is made with the first free port instead (function_block_impl.h:319-337). | `C178_violation_other_port` |
| C181 | The number of elements of a sample is a product of 64-bit sizes without overflow check, and a product of zero is replaced by one (data_descriptor_impl.cpp:179-184): 2^32 by 2^32 bytes are said to take one byte, and a sample of a dimension without labels the room of one element. | `C181_violation_overflow`, `C181_violation_empty_dimension` |
| C184 | Documentation and error message say that a record (descriptor with struct fields) can only have name and dimensions configured; reference domain information, whose offset is not even checked there, and metadata are accepted (data_descriptor_impl.cpp:219-238). | `C184_violation_reference` |
| C185 | The error message says that only integer types can have a reference domain offset, but the check `sampleType >= RangeInt64` (data_descriptor_impl.cpp:265) lets Float32 and Float64, which have smaller numbers, pass. | `C185_violation_float` |
| C186 | Scaling is documented as frozen, but its main constructor moves the parameters into the member and then freezes the parameter, which is empty by then (scaling_impl.cpp:24-41): the parameters of a built descriptor can be changed and are reported and serialised changed, while the calculation keeps the old ones. The list of labels of a dimension is not frozen with the dictionary that holds it (dimension_rule_impl.cpp:27-28), so labels and size of a dimension can change after the sample size was computed. The list of struct fields is frozen only if it is not empty (data_descriptor_impl.cpp:219-238), so a plain descriptor can get fields after it was built, even itself. | `C186_violation_scaling`, `C186_violation_labels`, `C186_violation_fields` |
| C188 | A descriptor without a name and one with an explicit rule without parameters can be built but not serialised (data_descriptor_impl.cpp:434-435, data_rule_impl.cpp:113). | `C188_violation_missing` |
| C192, C193 | `stop` of the main loop clears `running` while the works of the same iteration are still being run with the mutex released (scheduler_impl.cpp:40-47, 105-116). From then on another `runMainLoop` or `runMainLoopIteration` is let in, which the check for `running` is meant to refuse, and works run on two threads at once and out of order. | `C193_violation_overlap`, `C192_violation_order` |
| C194 | `stopMainLoop` is documented to have no effect if the loop is not running, but it schedules a work (scheduler_impl.cpp:40-47): the loop that is run next ends after its first iteration. And a call that is let in as above sets `running` again, so that the stopped loop goes on. | `C194_violation_early`, `C194_violation_lost` |
| C196 | `hasCompleted` overwrites what it found out with `!future.valid()` (awaitable_impl.cpp:89-92), which is false until the result is taken: after `wait` has returned it still says that the execution is not over. | `C196_violation_waited` |
| C197 | `getResult` can be called once: a second call takes the result of an invalid future, which is undefined, or fails with `OPENDAQ_ERR_EMPTY_AWAITABLE` (awaitable_impl.cpp:43-82). | `C197_violation_again` |
| C199 | `then` of a task that is in no graph with another such task dereferences a null pointer (task_impl.cpp:64-67). A task keeps the plain address of its graph, so `then` after the graph was released uses freed memory. Tasks of different graphs can be ordered; the later one is then never run. | `C199_violation_loose`, `C199_violation_released`, `C199_violation_graphs` |
| C201 | After `stop`, `waitAll` and `isMultiThreaded` dereference the pool that was reset (scheduler_impl.cpp:195-201, 280-286). `stop` destroys the main loop even while it is running, for example when a work of the main loop calls it (scheduler_impl.cpp:203-216). | `C201_violation_stopped`, `C201_violation_loop` |
| C205 | A component that is in a device before the device enters its default mode is not told that mode: `updateOperationMode` of a device and `setAsRoot` call only the handler of the device itself (device_impl.h:363-372, 1198-1203). A function block added to a device that is not yet added itself is told `Unknown` and stays so, although its `getOperationMode` gives the default mode of the device. | `C205_violation_early`, `C205_violation_root` |
| C207 | When the handler of a component fails, `setOperationMode` returns the error, but the device already reports the new mode, has sent the event, and the components visited before are in the new mode, those after it in the old one (device_impl.h:1221-1235). | `C207_violation` |
| C208 | `setOperationMode` is documented to exclude sub-devices. A device in any other folder of the device than that of the sub-devices is put back to its default mode, since `updateOperationMode` of a device enters the default mode whatever it is told (device_impl.h:1198-1203, 1224-1235). | `C208_violation` |
| C210 | `addModule` compares objects only, so a module with the id of one that is already there is accepted; `loadModule` of the same module is refused with `OPENDAQ_ERR_ALREADYEXISTS` (module_manager_impl.cpp:129-155, 365-396). | `C210_violation_added` |
| C211 | `tryLoadAndAddModule` ignores the error code of `authenticateModuleBinary`, and `Bool valid` is not initialised (module_manager_impl.cpp:349-357). When `onAuthenticateModuleBinary` of an authenticator throws, `valid` is not written (module_authenticator_impl.h:41-48), and an unauthenticated binary is loaded if the stack happens to hold something other than zero. | `C211_violation_throws` |
| C213 | The number in the generated local id of a function block is `maxNum + 1` of an `int`: with an item `<type>_2147483647` in the folder the addition overflows, which is undefined (module_manager_impl.cpp:1107-1133). | `C213_violation_overflow` |
| C215 | A module whose `getAvailableDeviceTypes` fails (other than not implemented) makes `createDevice` fail for all connection strings that are for modules after it: `getDeviceTypeFromConnectionString` throws (module_manager_impl.cpp:1476-1497); the same for `createServer` and `getAvailableServerTypes` (1247-1255). `createFunctionBlock` and `createStreaming` pass such modules. | `C215_violation_device`, `C215_violation_server` |
| C216 | `onCreateStreaming` does not leave its loop after a streaming was created (module_manager_impl.cpp:1515-1574): every module that offers the prefix connects, all but the last streaming are dropped, and the failure of a later one fails the call. If no module offers the prefix the call is successful and gives no streaming, where the other `create…` give `OPENDAQ_ERR_NOTFOUND`. | `C216_violation_twice`, `C216_violation_later`, `C216_violation_null` |
| C219 | In a configuration made from the default one, a value set for the device type that equals the default of the general property of that name is taken for not set, and overwritten by the general value (module_manager_impl.cpp:1914-1940): a device cannot be given an empty user name when the general one is not empty. | `C219_violation_explicit` |
| C221 | The smart connection string is `daq://manufacturer_serial`. Two devices with the texts (`a_b`, `c`) and (`a`, `b_c`) get the same one and are listed as one device; protocols of the second that the first has too cannot be connected to (module_manager_impl.cpp:655-664). | `C221_violation_same` |
| C223 | `PrimaryAddressType` is documented so: if no address of that type is available, the first available address of the other type is used. `setAddressesReachable` overwrites the connection string with each address of unknown status (module_manager_impl.cpp:571-583), so without a reachable one the last is used; IPv6 addresses always have unknown status. | `C223_violation_last` |
| C226 | `ReplaceSubDeviceOldProtocolIds` removes each capability and adds it with its new id (module_manager_impl.cpp:1801-1819). For a device that has a protocol under its old and its new id, or under two old ids, adding fails with `OPENDAQ_ERR_DUPLICATEITEM`, and `createDevice` fails after the device was created. | `C226_violation_both`, `C226_violation_old` |
| C228 | The status of the configuration connection is documented as one that cannot be removed. `removeStreamingConnectionStatus` removes it when given its connection string, and it can never be added again, since the container remembers that there was one (connection_status_container_impl.h:145-179, 218-250). | `C228_violation_removed` |
| C229 | The name of the status of a streaming is that of the first type whose prefix the connection string begins with, in the order of the dictionary. If the prefix of one type begins with that of another, streamings of the first are named after the second (connection_status_container_impl.h:390-405). | `C229_violation_prefix` |
| C231 | `addStreamingSource` puts the streaming into the list of sources before its status is added. When that fails, as it does for a streaming with the connection string of the configuration, the call returns the error, but the streaming is a source; removing it then removes the status of the configuration (mirrored_device_impl.h:134-225). | `C231_violation_refused` |
| C232 | `addStreamingSource` copies the status of the streaming before the streaming knows its device. A change in between is told to nobody, and the old status is listed until the next change (mirrored_device_impl.h:134-181, streaming_impl.h:688-699, 793-814). | `C232_violation_lost` |
| C235 | `attachStreamingsToDevice` tries only the most preferred protocol of a protocol group. If no module can connect over it, the device gets no streaming of that group, although another protocol of the group could be connected (streaming_source_manager.h:515-612). | `C235_violation` |
| C237 | `findMatchingAddress` does not look at the reachability of addresses. The first one of the wanted type is used, also if it is known not to answer and a later one answers (streaming_source_manager.h:398-427). | `C237_violation` |
| C240 | `enableStreamingForUpdatedComponent` looks only at signals that have no sources: after an update, new input ports have no streaming sources, and old signals do not get the connections that the update brings. With the MinHops heuristic, an updated nested device gets no connections at all, and `componentUpdated` throws for a signal, which it takes for a device (streaming_source_manager.h:154-185, 337-377). | `C240_violation_port`, `C240_violation_old`, `C240_violation_nested`, `C240_violation_signal` |
| C242 | Nothing looks for cycles of references. A reference property that names itself, or two that name each other, are accepted by `addProperty`; reading, writing or clearing them recurses without end and overflows the stack (property_object_impl.h:1353-1380, 2286-2348). | `C242_violation_self`, `C242_violation_cycle` |
| C243 | `addProperty` refuses a second reference to a property only if the property exists already. If it is added after the references, several references to it stand (property_object_impl.h:1435-1449). | `C243_violation` |
| C244 | `addProperty` assigns the owner of the definition before it looks up the name, and `removeProperty` does not reset the owner. A definition that was refused because of its name cannot be added to any object afterwards, and a removed property can neither be added again nor to another object (property_object_impl.h:2303-2309, 2351-2377; property_impl.h:1641-1663). | `C244_violation_refused`, `C244_violation_removed` |
| C245 | `removeProperty` leaves the handlers of the property in the object. They are called for the next property with this name, and the handlers of the new definition are dropped, since `emplace` does not replace the entry (property_object_impl.h:2320-2327, 2351-2377). | `C245_violation` |
| C249 | The rules for reference properties are one condition joined by `||` and `&&`: with the description "" a reference property may have a value type, limits, a unit or a callable info, and a missing description together with a value type raises an exception instead of reporting an error (property_impl.h:1093-1103). | `C249_violation`, `C249_violation_function` |
| C250 | The default value is only checked for presence. A default of another type, outside the limits or not among the selection values is accepted and reads back, although it cannot be written (property_impl.h:1036-1056). | `C250_violation_type`, `C250_violation_list`, `C250_violation_limit`, `C250_violation_selection` |
| C253 | If a handler is attached to the selection values or to the suggested values they are not saved, and only a flag that nothing reads is written. A saved and loaded selection property is a plain Int property (property_impl.h:1258-1290, 1324-1403). | `C253_violation`, `C253_violation_suggested` |
| C255 | The property type of a selection given by an expression is kept after it was found once. If the expression later yields a dictionary instead of a list, the property stays a selection by index and valid keys are refused; a property made by `SelectionProperty` never follows the expression while one of a builder does (property_impl.h:304-315, 256-266). | `C255_violation`, `C255_violation_direct` |
| C256 | A dictionary property with an empty default without item types accepts no entry at all, since the types are compared with Undefined; a list property with such a default accepts lists of objects, functions and lists, which a default may not contain (property_object_impl.h:947-976). | `C256_violation_dict`, `C256_violation_list` |
| C257 | Limits are neither checked against each other nor converted to the type of the property. A lower limit above the upper one is accepted; an Int property with the lower limit 2.5 stores the Float 2.5 for 1 and accepts 2; limits can lead out of the selection values (property_object_impl.h:866-897, ordinalobject_impl.h:189-226). The message about limits names Ratio as supported, but limits of Ratio properties are refused (property_impl.h:1078-1083). | `C257_violation_type`, `C257_violation_order`, `C257_violation_selection` |
| C260 | `beginUpdate` of an object leaves out frozen objects inside together with everything in them, although these are not frozen, and objects added afterwards: writes to them take effect at once during the update (property_object_impl.h:2620-2634, 2663-2677). | `C260_violation_frozen`, `C260_violation_added` |
| C261 | During an update `clearPropertyValue("child.prop")` is recorded by the object it is called on, but `setPropertyValue("child.prop", v)` is recorded by the child, and `endUpdate` brings children up to date first. Clearing and then setting a property of a child ends with the default; the same for clearing the child as a whole (property_object_impl.h:2030-2039, 1096-1138, 2680-2720). | `C261_violation_order`, `C261_violation_object` |
| C262 | If `endUpdate` of one child fails, for example because a recorded value is refused by a validator, the children after it stay in the update, and the calls recorded by the parent stay recorded although the parent left the update. The next, empty, update makes them and overwrites newer values. If a recorded call of the object itself fails, the calls after it are lost. An object property added during the update makes `endUpdate` fail always, with the writes of the parent not made (property_object_impl.h:2637-2651, 2680-2720, 2749-2776). | `C262_violation_refused`, `C262_violation_late`, `C262_violation_lost`, `C262_violation_added`, `C262_violation_added_lost` |
| C263 | Clearing an object property stops with access denied at the first read-only property inside; properties before it are cleared, those after it are not (property_object_impl.h:2083-2106). | `C263_violation_readOnly` |
| C268 | Integers from 2^63 in a JSON configuration are stored as negative numbers: they are read as unsigned and converted to a signed integer (json_config_provider_impl.cpp:57-82). | `C268_violation` |
| C270 | Environment variables and arguments for an option that exists: `12abc` and `0x10` set an integer to 12 and 0, `5` is ignored for a float because it has no point, and a text in quotes, documented to be a string, sets an integer (base_config_provider_impl.cpp:63-91, 110-158). | `C270_violation_int`, `C270_violation_float`, `C270_violation_quotes` |
| C271 | A text for a new option becomes a number if it starts with one: `192.168.1.1` becomes the float 192.168 and `10 Hz` the integer 10 (base_config_provider_impl.cpp:63-108). | `C271_violation` |
| C273 | With arguments for an option and for one inside it (`-CA=1 -CA_B=2`) the first wins, and environment variables have no order of their own (base_config_provider_impl.cpp:159-188). | `C273_violation` |
| C274 | The variable `OPENDAQ_CONFIG_PATH`, which names the JSON file, also sets an option `PATH`. Options with `_` in a name can never be set by a variable or an argument (base_config_provider_impl.cpp:36-52, json_config_provider_impl.cpp:18-30, env_config_provider_impl.cpp:24-38). | `C274_violation`, `C274_violation_underscore` |
| C275 | The instance builder asks the providers each time options are read, so a value set after a provider was added is replaced by that of the provider, even after the options were read (instance_builder_impl.cpp:293-297, 377-421). | `C275_violation` |
| C276 | If the items of selection values differ in type, `setPropertySelectionValue` accepts each of them, but `getPropertySelectionValue` then fails unless the item has the type of the first. For a property that also has limits, another item than the one asked for can be selected (property_object_impl.h:1687-1792, 2171-2242). | `C276_violation_types`, `C276_violation_limits` |
| C277 | The default of a selection property is not compared with the selection values, so `getPropertySelectionValue` of a new property can fail. If the selection values are an expression and change, what was selected silently turns into another item, or the selection cannot be read (property_object_impl.h:2171-2242, property_impl.h:1105-1125). | `C277_violation_default`, `C277_violation_changed` |
| C279 | Clearing `userName` or `location` through the device information succeeds but changes nothing a reader sees: reads and writes are passed on to the device, `clearPropertyValue` is not (device_info_impl.h:1110-1141). | `C279_violation` |
| C280 | A user name or location set before the information belonged to the device stays in the information, is saved with it and replaces the value of the device when the configuration is restored. If the information was never asked for before restoring, the saved value is lost (device_info_impl.h:1033-1049, device_impl.h:2523-2531). | `C280_violation_old`, `C280_violation_new` |
| C281 | Restoring a configuration does not clear fields of the information that were not set when it was saved (device_info_impl.h:1064-1099), unlike properties of other objects. | `C281_violation` |
| C283 | `name`, `connectionString` and `sdkVersion` stay read-only even if the caller names them as changeable, as they are created before the names are stored (device_info_impl.h:206-270). | `C283_violation` |
| C284 | Setting a locked name of a device fails silently for the device but changes the name of its information; restoring a configuration changes the name of the device and not of its information (device_impl.h:1568-1578, component_impl.h:526-565, 1263-1269). | `C284_violation_locked`, `C284_violation_restored` |
| C286 | `setProtocolId` on a capability that was added leaves it under its old protocol: the device has the old one, not the new one, and neither can be added (device_info_impl.h:773-906). | `C286_violation` |
| C288 | `addAddressInfo` drops dots, slashes and brackets to form a name, so 192.168.11.1 and 192.168.1.11 collide and the second is refused (server_capability_impl.h). | `C288_violation` |
| C290 | Information that is read from a document has its clients but counts from 0 again, so the next client that registers without a number is refused (device_info_impl.h:206-221, 963-980). | `C290_violation` |
| C292 | If the native streaming server is told twice that a client connected, the client stays listed after it left (native_streaming_server_impl.cpp:352-387). | `C292_violation` |
| C293 | `getNetworkInterfaces` returns the dictionary that is kept, so that callers can add interfaces without a name and replace others, even if the information is frozen (device_info_impl.h:919-948). | `C293_violation` |
| C295 | Update options are looked up by local id in the whole tree, so two sub-devices with the same local id share the options of the last one; the update mode of the root can be set without error and is not used (component_update_context_impl.h:118-141, 277-284, device_update_options_impl.cpp:154-158). | `C295_violation_same_id`, `C295_violation_root` |
| C296 | With `removeUnusedDevices` and a configuration without any device nothing is removed: a configuration without devices has no `Dev` member, and unused devices are removed only if it has one (device_impl.h:2448-2487, signal_container_impl.h:548-566). | `C296_violation_no_devices` |
| C297 | When a device is replaced, every part of a saved global id equal to its local id is replaced, also those of signals, function blocks and folders, so connections to other devices are lost. A device that is loaded rather than replaced and gets another local id is not noted at all, so that connections to it are lost (component_update_context_impl.h:459-485, device_impl.h:2210-2211). | `C297_violation_signal`, `C297_violation_other_device`, `C297_violation_added` |
| C298 | The documentation gives manufacturer and serial number priority over the connection string. Among connected devices the first that matches either is used (device_impl.h:2223-2271). | `C298_violation_priority` |
| C299 | Swapping two devices at the same level loses one of them, although devices to be replaced are removed in advance to allow this. When the second one is processed, the device that was just added for the first one has its local id, is taken for the one to be replaced and is removed (device_impl.h:2089-2108, 2454-2455). The one test of swapping has the devices at different levels. | `C299_violation_swap` |
| C300 | If one device is replaced by another one that is to be removed, whether the latter is there afterwards depends on the order in the document (device_impl.h:2101-2123, 2464-2477). | `C300_violation_order` |
| C305 | When the wrappers turn a recorded error back into an exception, its message is used as a format string without arguments (`DaqException` formats the text it is given). A message with a single brace, for instance a quoted JSON document or a property reference, reaches the caller as an exception of the formatting library: it has no error code, is not a `DaqException`, and the original message is lost. Doubled braces become single. This happens at every interface the error crosses (bb_exception.h:27-30, exceptions.h:36-40, error_code_to_exception.h:46-53, 69-72). | `C305_violation`, `C305_violation_braces` |
| C306 | `checkErrorInfo` uses the message of the newest pending error if its code is the returned one. If an older failure was ignored by the caller and a later call returns the same code without recording an error, the exception has the message of the older one (ctutils.h:183-215). | `C306_violation` |
| C308 | The text of an error information is kept when it is read first. A message set afterwards is not shown (errorinfo_impl.cpp:600-605, 473-483). | `C308_violation` |
| C309 | Saving an error information leaves out its error code and the code it was raised from; it is read back as a general error. Errors of devices that could not be connected are sent to clients this way. An empty file name becomes none (errorinfo_impl.cpp:668-710, 726-820, config_server_device.h:158-183). | `C309_violation_code`, `C309_violation_file` |
| C310 | `OPENDAQ_RETURN_IF_FAILED` throws `std::runtime_error` out of the calling interface function instead of returning the code, if the failing callee did not record an error: always in debug builds, and in release builds when a message is given. Some functions return codes without recording an error, for instance the setters of error information itself (errorinfo_impl.cpp:401-418, ctutils.h:344-438). | `C310_violation` |
| C313 | Passing on an error while none was ever recorded throws and leaves an empty scope behind, which stays until errors are cleared (errorinfo_impl.cpp:84-96, 116-120, 401-407). | `C313_violation_left` |
| C318 | While an update of the synchronisation component is open a new selection is only queued, but `removeInterface` computes it from the stored one. Two interfaces removed in one update move the selection by one instead of two: another interface is selected silently, or `endUpdate` fails and leaves an index no interface has (sync_component_impl.h:216-257, property_object_impl.h:1098-1102, 2750-2780). | `C318_violation_other`, `C318_violation_update` |
| C319 | `addInterface` walks up the parents of the class without a limit. Classes that are each other's parents, which the type manager accepts, make it recurse until the stack overflows (sync_component_impl.h:153-178). | `C319_violation_cycle` |
| C322 | With protocol versions below 23 `acceptsSignals` of a client input port ignores the result of `acceptsSignal` for each signal and starts with `True`: signals the device fails to answer for are reported as accepted, and below version 4, where `acceptsSignal` refuses every call, all signals are (config_client_input_port_impl.h:205-217). | `C322_violation` |
| C324 | The streaming producer asks for the domain signal anew when a connection is removed, follows chains of domain signals that it has not followed when the connection was added, and throws for a signal it does not know. If the domain signal has changed, or has a domain signal itself, the signal and its former domain signal are read and sent for ever (config_protocol_streaming_producer.cpp:71-74, 130-131, 137-140). | `C324_violation_changed`, `C324_violation_chain` |
| C325 | The device makes the mirrored signals before its port accepts or refuses the signal. When it refuses, they stay, since the client removes only signals of connections it has added (config_protocol_server.cpp:455 and 500, config_protocol_client.cpp:779-781). | `C325_violation` |
| C326 | `connect` of a client input port gives up the external signal it has before it asks the device for the new one. If the device refuses, the client still says that the port has the first one while nothing is streamed. From version 18 on every further attempt then fails, because the signal given up a second time is a null pointer (config_client_input_port_impl.h:100-127, config_protocol_streaming_producer.cpp:129-135, streaming_impl.h:1153-1155). | `C326_violation_refused`, `C326_violation_stuck` |
| C327 | `disconnect` of a client input port leaves it to the event of the device to give up an external signal. When the event is handled after the call, the port has no signal any more and the signal is read and sent for ever (config_client_input_port_impl.h:140-167). | `C327_violation` |
| C328 | The streaming producer keeps the object of a signal whose connection has been refused. An object with the same global id connected later is not the one that is read (config_protocol_streaming_producer.cpp:34-40). | `C328_violation` |
| C329 | Removing the mirrored signal of a port that is given another external signal makes the device send the event of a disconnected port. When the event is handled after `connect` has returned, it disconnects the new signal at the client and at the device (config_client_input_port_impl.h:107, 324-326). | `C329_violation` |
| C333 | `pushBack` and `pushFront` of an rvalue give the pointer to the list and detach it after success only. An owning list whose owner is gone stores the pointer and then fails, so the object is released by the caller and the list is left with a pointer to a destroyed object (listptr.h:350-358, 382-390; owning_list_impl.cpp:64-78). | `C333_violation_moved` |
| C333 | `popBack` and `popFront` of an owning list take the element out and then fail when it does not give up its owner, as input ports do. The caller does not look at the pointer after an error, so the reference is never released (owning_list_impl.cpp:88-102, input_port_impl.h:600-610, listptr.h:392-414). | `C333_violation_popped` |
| C337 | `setItemAt` of an owning list gives the new element the owner, but does not take it from the one replaced (owning_list_impl.cpp:40-46). | `C337_violation_replaced` |
| C337 | An object that is in an owning list twice loses its owner when one of the two is removed (owning_list_impl.cpp:88-131). | `C337_violation_twice` |
| C337 | An owning list that is destroyed or disposed of leaves the owner to its elements, unlike one that is cleared (owning_list_impl.cpp:133-149, listobject_impl.cpp:393-405). | `C337_violation_destroyed` |
| C338 | An owning list whose owner is gone answers an error when an element is added, but the element is in the list (owning_list_impl.cpp:48-86). | `C338_violation_added` |
| C338 | `clear` of an owning list with an element that does not give up its owner fails half-way: the elements stay, those before have lost their owner (owning_list_impl.cpp:133-149). | `C338_violation_cleared` |
| C341 | `fixupIso8601` looks for `+` only: an origin with an offset west of Greenwich (`…-05:00`) gets a second offset and is not in the form the parser is said to expect (reader_utils.h:61-84). | `C341_violation` |
| C343 | A tick is multiplied by the numerator of the resolution in 64 bits: for `UInt64` the product wraps, so that later ticks get earlier time points, for other types it overflows, which is undefined (time_reader.h:203, 216). | `C343_violation` |
| C345 | Time points are computed with `double`: with ticks of a nanosecond since 1970, up to 256 neighbouring ticks have the same time point (time_reader.h:196-218). | `C345_violation` |
| C346 | A time reader does not look whether the origin of a new descriptor could be parsed, and parses it into the origin before: if it is no date, ticks are counted from the origin of the descriptor before (time_reader.h:235-236). | `C346_violation` |
| C349 | When a signal is disconnected, or replaced by another one, the packet reader drops the connection with the packets not yet read (packet_reader_impl.cpp:155-169). | `C349_lost_violation` |
| C353 | When the callback of a packet reader fails, the external listener is not told of the packet (packet_reader_impl.cpp:171-189). | `C353_told_violation` |
| C355 | A reader made from a port gets the descriptor announced last put in front of the waiting packets; when a change of the descriptor is waiting too, the data before the change are read after the wrong descriptor (input_port_impl.h:464-472, connection_impl.cpp:764-776). | `C355_takeover_violation` |
| C356 | When the external listener refuses a connection, the signal connected before is already gone, with the packets that waited, and the reader keeps the refused connection (input_port_impl.h:674-699, packet_reader_impl.cpp:143-153). | `C356_refused_violation` |
| C360 | A component whose level is off still lets messages of the level off through (logger_component_impl.cpp:96-101). | `C360_off_violation` |
| C361 | A number above all levels in the variable of a component hides the general variable, so that the compiled level is used; a number below, or no number, does not (logger_component_impl.cpp:161-178). | `C361_env_violation` |
| C366 | A description of a log file with an id and without an encoding is built, but throws when it is serialized, so that a client cannot list the log files of such a device (log_file_info_impl.cpp:28-37, 116-117). | `C366_sent_violation` |
| C367 | Names of log files may have slashes; then different files may get the same id (log_file_info_impl.cpp:31-34). | `C367_ids_violation` |
| C371 | `stop` of a timer notifies without the lock that the waiting thread uses; when the thread is between its test and its wait, the notification is lost, the client waits for a whole interval, and the callback is called once more (timer_thread.cpp:58-64, 164-182). | `C371_stopping_violation` |
| C372 | For every negative delay the interval is promised (timer_thread.h:57), but only -1 is treated so: with others the timer calls at once, or, when the time falls into the first part of a second, has negative nanoseconds, cannot wait, and loops without ever calling (timer_thread.cpp:15-22, 137-155). | `C372_negative_violation`, `C372_never_violation` |
| C373 | On Linux a new interval set while the timer runs is not used until the next start (timer_thread.cpp:157-158); elsewhere it is used after the next call. | `C373_set_violation` |
| C376 | Answers are counted, not addresses: one address that answers twice, or one that was not asked, ends the wait for the others before its time (icmp_ping.cpp:190-196, 275). | `C376_complete_violation` |
| C377 | The sequence number of every ping is 1 and its identifier is that of the process, so a late answer to an earlier ping is taken for one to this ping, and its address is reported although it was not asked; addresses of an earlier ping of the same object are kept by `start` (icmp_ping.cpp:63-64, 120, 252-264). | `C377_asked_violation` |

Uninitialised padding and offset fields of packet headers are sent over the wire (`buildPkt` takes them as
arguments; the theorems hold for every content).

## What is modelled so far

| area | modelled | not modelled |
|----|----|----|
| `Connection` | `ConnectionImpl`: enqueue (3 modes), enqueueMultiple, dequeue, dequeueAll, dequeueUpTo, peek, counters, gap check, enqueueLastDescriptor; activity and notification method of the port | threads, the scheduler itself, packet contents; doubles are idealised to rationals |
| `PacketStreaming` | server: addDaqPacket, getNextPacketBuffer, release collection, linear caching groups; client: all four buffer kinds, held-back buffers | serialisation of events, timestamps, byte layout of headers, reference counts (the release mark is an input) |
| `Wire` | config packets: all create and parse functions, server packet dispatch, client handshake; native streaming: transport header, all `send…` and `read…` functions of the session handlers, read loop; packet buffer headers | sockets and the external `Session` (assumed to hand over exactly the requested bytes in order), JSON parsing, RPC execution (a function of the request text), missing handlers |
| `Streaming` | `StreamingManager`: signals, clients, subscriptions, publishing (single and batch), client signals, numeric ids; `handleStreamingInit`; `getStreamingWriteTasks` and linear caching on top of `PacketStreaming` with arbitrary memory contents | locks, callbacks into the session, time stamps; the packet server of a client is its log of accepted packets (except for the write tasks) |
| `DataPacket` | linear and constant rule calculators (bulk, single, last), range samples, post scaling, reference domain offset, `DataPacketImpl`: constructors, getData, value by index, last value, reuse; descriptor validation as far as these fields go | struct and array samples, allocation failure, destruct callbacks, domain packets; sample arithmetic is a parameter |
| `Reader` | `StreamReaderImpl`, `TailReaderImpl`, `BlockReaderImpl`: read, readWithDomain, skipSamples, available counts, event handling, validity, wait condition of the stream reader, on the `Connection` model (block reader: on the packet queue) | conversion of sample types (samples are tokens), connecting and disconnecting, threads and the timed wait itself, block reader timeouts, multi reader and packet reader |
| `Security` | `PermissionsBuilderImpl`, `PermissionManagerImpl`, group list of `UserImpl`; `UserLockImpl` and the locking part of `GenericDevice` on arbitrary device trees; `AuthenticationProviderImpl` with its static and JSON variants, the bcrypt pattern, `NativeStreamingServerHandler::onAuthenticate` | bcrypt itself (a parameter), JSON parsing (a parsed value is given), reading the JSON file, serialization of locks and users, core events, threads |
| `CoreTypes` | `RatioImpl` construction, `simplify`, `equals`; `daq::simplify`; operators of `RatioPtr` | conversion to floating point and with it `compareTo`, `toInt`, `toBool`; comparison with other objects |
| `Component` | id helpers (`ids_parser.h`), component creation and global ids, the items of `FolderImpl`, `remove`/`clear`, `setActive`/`setParentActive`, `findComponent` of the server and of components, `TagsImpl`, `ComponentStatusContainerImpl` and the client's `tagsChanged`/`statusChanged` | search filters, folder core events, locks, permissions, tag queries, `GenericDevice::setParentActive` (ignored for root devices), serialization of components |
| `Signal` | `checkCyclicReferenceRecursive`, `connectInternal`, `disconnect`, `setListener` of input ports and the connection lists of signals | removed signals and ports, the packets enqueued on connecting, locks |
| `PropObj` | `GenericPropertyObjectImpl`: set, clear and protected variants, checks and coercion in their order, `callPropertyValueWrite` with its three events and `PropertyUpdateStack`, reading, add/remove, custom order and `getAllProperties`, `beginUpdate`/`endUpdate`, `clearPropertyValues`, `freeze` | nested objects and dotted names, reference properties, expressions, read events, permissions, locks, serialization; handlers are lists of actions (writes, clears, argument changes, exceptions) depending on the event |
| `Expr` | `EvalValueLexer` and `EvalValueParser` completely, `parseEvalValue`; undefined behaviour of the character functions as an outcome | evaluation of the tree, resolution of references; whether `std::stod` accepts a number is a parameter; the C locale; stack depth of the recursive parser |
| `PacketBuffer` | `PacketBufferImpl`: `createPacket`, `Write`, `Read`, `CleanOosPackets`, `resize`, the two queries | queries running beside other operations (they take no mutex); packets that outlive the buffer (the deleter keeps a plain pointer); several threads in `resize` at once |
| `Multi` | `MultiReaderImpl`: `read`, `readWithDomain`, `skipSamples`, `getAvailableCount`, `getEmpty`, `packetReceived`, common rate and start, synchronisation; `SignalReader`; linear domains of `TypedReader` | waiting with a timeout, notification modes, unused, inactive or disconnected inputs, tick offset tolerance, explicit domain values, creation from another reader, several threads |
| `Link` | `SignalBase`: `setDescriptor`, `setDomainSignal`, `sendPacket(s)`, listeners, last value, `removed`; `GenericInputPortImpl`: `connect`, `disconnect`, `remove`; `LastValueCache::cacheValue` | threads and locks, destruction without removal, related signals, timestamps of the last value, core events of signals, listeners that call back |
| `Lifetime` | `GenericObjInstance`: `addRef`, `releaseRef`, reference counters of objects with weak references; `WeakRefImpl`: constructor, destructor, `getRef`, `getRefAs`, `addRef`, `releaseRef`; `SupportsWeakRef::getWeakRef` | counters are unbounded (32-bit in the code), steps are sequentially consistent (acquire/release in the code), `dispose`, constructors that throw after a weak reference was taken |
| `SmartPtr` | `ObjectPtr<T>`: the assignment operators, destructor, `release`, `detach`, `Adopt`, `Borrow`, `operator&`, `as`, `operator->` | constructors other than through assignment, threads, destructors that touch other smart pointers |
| `Values` | `equals`, `getHashCode`, `compareTo`, `clone` of booleans, integers, floats, strings, ratios (equality), complex numbers, lists and dictionaries; the dictionary calls | comparison of strings and ratios with other kinds, list edits, iterators, reference counting inside containers, collisions of shortened hash codes in `tsl::ordered_map` (its table is an insertion-ordered list here) |
| `Values/Json` | `serialize` and deserialization of the same values, `daqInterfaceIdToString`/`daqStringToInterfaceId`, `JsonSerializedList` | JSON text (rapidjson is trusted; doubles read back are a parameter `rt`), factory callbacks, types other than List, Dict, Ratio and ComplexNumber, the buffer leaked by `deserialize` when an exception leaves it |
| `Bulk` | `daqBulkCreateDataPackets`: sizes, positions and wiring; `releaseRef`/`onDestruct`/destruction of the block, `getDomainPacket` and `getOffset` by concurrent clients | failure of `malloc`, constructors that throw (the exception leaves an `extern "C"` function and the block leaks), `dispose` and `reuse`, weak references |
| `Event` | all calls of `EventImpl` except `clone`, including calls made by handlers while a `trigger` is in progress; hash codes of handlers | null arguments, sender and arguments, threads (every call holds a recursive mutex), copying and moving of closures inside `delegate` (moved byte by byte, `delegate.hpp:341-348`) |
| `Search` | the filters of coretypes and opendaq (acceptsObject, visitChildren), `searchItems`, `getItems`, and `getSignals`, `getSignalsRecursive`, `getInputPorts`, `getChannels`, `getChannelsRecursive`, `getDevices`, `getFunctionBlocks` of devices and function blocks | changes of the tree during a search, removed devices, custom filters that throw, filters given objects that are no components, property filters and `findProperties` |
| `Mirror` | `StreamingImpl` (addSignals, removeSignals, removeAllSignals, subscribe, unsubscribe, detachRemovedSignal, onPacket for data, ids on offer, reconnection, destructor) and `MirroredSignalBase` (sources, active source, streamed, deactivate, listened, removed) with the connections of `SignalBase` | threads, the concrete protocols, input ports and streaming to devices, acknowledgements, the order of hash tables (insertion order is used) |
| `MirrorEv` | `onTriggerEvent`, `handleEventPacket`, `createDataDescriptorChangedEventPacket`, `setMirroredDataDescriptor` of mirrored signals | other events, the contents of descriptors, `setMirroredDomainSignal` at run time |
| `Remote` | server side: setting and clearing of property values with handlers, batches, adding and removing properties, attributes and their locks, tags, statuses, adding and removing of items, core events; client side: deserialization of property objects, components and folders, handling of every core event of components and folders, `remoteUpdate`, `componentUpdateEnd`, which request the four write calls send | values other than numbers (a property is a function from the environment and the written value to the stored one, so types, coercers, validators and limits are covered), selection and reference properties, function properties, read handlers, devices, function blocks, signals and ports beyond their component part, connections, permissions, transport (events arrive complete and in order), threads, property order, active state of ancestors (a parameter) |
| `Types` | type manager (`addType`, `removeType`, `getType`, `getTypes`, `hasType`, core event callback, serialization and deserialization), struct types, structs (creation, derived types, equality, serialization), struct builders, enumeration types and values, names of types | content of values that are neither structs nor enumerations (opaque), elements of lists and dictionaries, property object classes (see Classes), locales other than "C", allocation failure, threads (the lock of the manager makes its calls atomic), enumeration types that differ in the order of entries only (different here, equal in the code), types called "struct" or "enumeration" |
| `Classes` | property object classes (`getProperty`, `hasProperty`, `getProperties`, `getInheritsFrom`, clone, serialization), class builders, the listing and lookup of properties of an object of a class, including the listing used while a configuration is loaded | content of properties (opaque, apart from the names a reference property refers to), cloning of the properties themselves, `Description` of classes, type managers other than the one looked at, binding of properties to objects (see PropObj) |
| `Access` | the native configuration server's request handling: all 54 registered handlers, lookup of components by id, permission, lock and view-only checks, nested properties, device info names, operation modes, ports and external signals (`config_server_*.h`, `config_protocol_server.cpp:24-197, 327-556, 711-717`) | the components behind the server (arbitrary: any states, answers and effects), decoding of requests and missing parameters, error messages, packing of results, update parameters and the reply of Update, threads (requests run one at a time), notifications, version negotiation |
| `Sessions` | sessions of the native streaming server: transport properties, connection limit, control and exclusive control, streaming registration with its settings, release of sessions (`native_streaming_server_handler.cpp:104-115, 407-566, 581-717, 740-810, 864-956`, `streaming_manager.cpp:112-120, 274-345`), connected clients (`native_streaming_server_impl.cpp:352-388`, `device_info_impl.h:964-994`) | the transport (asio, handshake, authentication), several threads, subscriptions and packets (see `Streaming`), what configuration packets do (see `Access`), removal of the root device, activity monitoring and write timeouts |
| `Notify` | notifications of the configuration server: `coreEventCallback`, `isForwardedCoreEvent`, `packCoreEvent` and the processing of parameters, collection during calls, `SendOutCoreEvents`, `RpcScopeTracker` (`config_protocol_server.cpp:234-262, 290-297, 393-404, 557-770`), external signals of the client (`config_protocol_streaming_consumer.cpp:125-204`), the choice of the version (`config_protocol_client.h:307-365`) | what calls do (see `Access`, `Remote`), the JSON text, the client's treatment of notifications (see `Mirror`, `MirrorEv`, `Remote`), the memory model: threads take turns between accesses |
| `Config` | saving and loading configurations: values of property objects (`property_object_impl.h:1264-1295, 2021-2137, 3185-3231, 3574-3734`), attributes (`component_impl.h:965-1022, 1232-1325`), signals, ports, function blocks and their removal and creation (`signal_impl.h:1120-1167`, `input_port_impl.h:725-789`, `function_block_impl.h:274-345, 520-547`, `signal_container_impl.h:645-711, 800-878`), the update context (`component_update_context_impl.h`), the user lock (`user_lock_impl.cpp`), `saveConfiguration` and `loadConfiguration` | the JSON text, sub-devices and update modes, custom components, synchronisation, operation modes, properties of signals and ports, function blocks whose ports or signals change with their connections or properties, access rights, core events |
| `Descr` | data descriptors and what they are made of: construction and checks (`data_descriptor_impl.cpp:40-60, 177-302, 416-426`, `data_descriptor_builder_impl.cpp:26-53`, `data_rule_impl.cpp:36-43, 144-181`, `dimension_rule_impl.cpp:16-29, 108-211`, `dimension_impl.cpp:67-93`, `scaling_impl.cpp:24-62, 176-203`), serialisation and deserialisation of all of them and of reference domain information, freezing and sharing of their lists and dictionaries | the text of documents (see `Values`), units, value ranges and resolutions (opaque), struct access to the same fields, `equals`, the calculations themselves (see `DataPacket`), what a refused build leaves frozen |
| `Sched` | the main loop (`scheduler_impl.cpp:40-172`), awaitables (`awaitable_impl.cpp`), tasks and task graphs (`task_impl.cpp:56-123`, `task_graph_impl.cpp:46-91`), the state of the scheduler and what its calls check (`scheduler_impl.cpp:174-325`), repetitive works (`work_impl.h`) | the thread pool (the Taskflow library, not in the repository; its documented behaviour for graphs is assumed), `cancel`, time, logging, names and dumps of graphs, races on the flag `stopped`, graphs released while they run |
| `Modes` | `setOperationMode`, `setOperationModeRecursive`, `getOperationMode`, `updateOperationMode`, `setAsRoot` (`device_impl.h:363-372, 1144-1260`), the same for other components (`component_impl.h:800-811, 870-876`, `folder_impl.h:577-595`, `signal_container_impl.h:780-796`), and the adding and removing of items (`folder_impl.h:202-261`) | locks, muting of events, the mode in saved configurations (it is restored without calling any handler, device_impl.h:2391-2395), devices on a client (the calls go to the server), permissions of the sub-devices on a server; components are visited in the order of creation |
| `Mgr` | `addModule`, `loadModules`, `loadModule`, `tryLoadAndAddModule`, `setAuthenticatedOnly`, `createFunctionBlock` with the generated id, `createServer`, `createDevice`, `createDevices`, `onCreateStreaming`, `ConvertIfOldId…`, `SplitConnectionStringAndOptions`, `getPrefixFromConnectionString`, `OverrideConfigProperties`, `CopyCommonGeneralPropValues`, `PopulateDeviceTypeConfig`, the grouping in `getAvailableDevices`, the choice in `setAddressesReachable`, `getConnectionStringWithType`, `resolveSmartConnectionString`, the merging and renaming of capabilities (`module_manager_impl.cpp`) | loading of shared libraries and the scan of folders, the safe loading mode and orphaned modules, pings and mDNS, threads, the time of the last scan, the evaluation of option values (values are opaque), validation and coercion of configuration values, `completeServerCapabilities`, IP configuration; a text of a path is taken as it is (no normalisation, as in the code) |
| `Status` | the container of connection statuses (`connection_status_container_impl.h`, all of it), `addStreamingSource`, `removeStreamingSource` (`mirrored_device_impl.h:134-225`) and the change of the status of a streaming (`streaming_impl.h:688-699, 793-814`) | locks inside the container, events that call back, reading of saved containers with entries of other types |
| `Sources` | choice of streaming connections (`streaming_source_manager.h:398-658`), and what signals and input ports get when a component is added or updated (`streaming_source_manager.h:115-396`) | parsing of the configuration, creation of streamings by the modules (a function of the connection string), `completeDeviceCapabilities`, events of components that change while they are handled |
| `Refs` | reference properties and their expressions `%A` and `switch` (`property_object_impl.h:1085-1201, 1331-1380, 1554-1640, 2021-2137`, `eval_nodes.cpp:55-81, 185-218`), adding and removing properties, owners and write handlers (`property_object_impl.h:1435-1449, 2286-2377, 2516-2552, 2871-2918`) | other expressions in references, classes, nested objects, updates in progress, read handlers, handlers that act, the checks of written values (see PropObj) |
| `Defs` | property definitions and their builders (`property_impl.h:92-315, 352-458, 693-722, 1028-1226, 1244-1460, 1666-1794`, `property_builder_impl.cpp:9-159`), conversion and checks of written values (`property_object_impl.h:866-978, 1025-1240`, `ordinalobject_impl.h:189-226`) | expressions in fields other than selection values and references, freezing of defaults, results of the handlers that replace selection values, struct and enumeration types, coercers and validators (see PropObj), the events shared between a property and its clones (property_impl.h:1449-1452) |
| `Nest` | nested property objects: writing and clearing with dotted names, recording during updates, `beginUpdate`, `endUpdate` and their recursion (`property_object_impl.h:898-923, 1078-1201, 1242-1296, 1553-1640, 1944-1948, 2021-2168, 2286-2348, 2613-2776, 3500-3507`, `folder_impl.h:528-560`, `signal_container_impl.h:749-777`) | events of updates (see PropObj), property classes, reference properties (see Refs), protected access, writes of whole object properties, the update context of components |
| `Opts` | config providers and options of the instance builder (`base_config_provider_impl.cpp`, `json_config_provider_impl.cpp:57-224`, `env_config_provider_impl.cpp:24-38`, `cmd_line_args_config_provider_impl.cpp:13-25`, `instance_builder_impl.cpp:11-47, 96-106, 293-297, 377-421`) | the JSON parser and reading of files, overflow and rounding of floats, hexadecimal floats, other locales, what the built instance does with the options |
| `Defs` | selection by value (`property_object_impl.h:1687-1792, 2171-2242`) | selection during an update and through dotted names |
| `Info` | device information (`device_info_impl.h`): constructors, fields, owner, custom properties, saving and restoring, capabilities, clients and network interfaces; `getInfo`, `setName`, `serializeForUpdate` and `update` of a device as far as they concern it; connection strings and addresses of capabilities (`server_capability_impl.h`); `clientConnectedHandler` and `clientDisconnectedHandler` of the native streaming server | conversion of values, handlers, events, batches; the configuration connection; serialization of the documents; mirrored devices except that they have no owner |
| `Loading` | `updateObject`, `updateDevice`, `removeRemappedDevices`, `findConnectedDeviceForRemap`, `removeDeviceIfNotStatic` of devices (`device_impl.h`) at all depths; `recurseDeviceUpdateOptions` and `remapDeviceLocalIds` (`component_update_context_impl.h`); device update options: setting, serialization, reading from a configuration (`device_update_options_impl.cpp`) | how a device is created, errors thrown while a device is updated, removed or created (they are logged), configuration of the device to create; reading the local id of the root; connecting the input ports |
| `Errors` | all of `errorinfo_impl.cpp` except `toString` of guards: `ErrorInfoHolder`, `ErrorGuardImpl` (debug and release build), `ErrorInfoImpl` with serialization; `DAQ_MAKE_ERROR_INFO`, `OPENDAQ_RETURN_IF_FAILED`, `errorFromException`, `checkErrorInfo`, `ErrorCodeMessage` (`ctutils.h`), `throwExceptionFromErrorCode` and the formatting of messages by `DaqException` | several threads (each has its own errors), lifetime of the objects, errors with a source object, `printf` parameters (the text is cut after 1023 characters), guards inside `wrapHandler` (used in debug builds), registering exceptions; formatting a text without arguments is modelled after the documentation of the fmt library |
| `Sync` | `GenericSyncComponentImpl` (`addInterface`, `removeInterface`, `getInterfaces`, `setSelectedSource`, `getSelectedSource`, `checkClassNameIsSyncInterface`), with the parts of property objects it uses: index selections, `addProperty`, `removeProperty`, `beginUpdate`, `endUpdate` | the interface objects themselves (an interface is its class name), properties added to or reordered in "Interfaces" by other means, "SynchronizationLocked", events, saving and loading, frozen components, several threads |
| `Ext` | `ConfigClientInputPortImpl` (`connect`, `disconnect`, `assignSignal` for disconnected ports, `acceptsSignal`, `acceptsSignals`), `ConfigProtocolStreamingProducer` (registration, triggers, which signals are read), `ConfigProtocolClientComm` (`connectExternalSignalToServerInputPort`, `disconnectExternalSignalFromServerInputPort`), on the device `connectExternalSignal`, `getOrAddExternalSignal`, `removeExternalSignals` and the events of disconnected ports | the thread reading packets, signals registered with streamings, events of connected ports, `removed`, several clients, the wrap of the numbers (`uint32_t`), devices refusing to remove mirrored signals, packets |
| `Boxes` | `ListImpl`, `OwningListImpl` and `DictImpl` with the references they take and release, `freeze`, `dispose` and their destruction, `IOwnable::setOwner` of property objects and of input ports, the smart pointers of lists as far as they detach pointers | iterators, `clone`, `equals` and serialization (`Values`), dictionaries with owners, ids of element types, what objects hold themselves and what their destructors do, `unsafePushBack` and its like, threads |
| `Clock` | `TimeReaderBase` (`transform`, `handleDescriptorChanged`, `readData`, `readSamples`) for integer and range samples, `fixupIso8601`, conversion of 64-bit integers to `double` | parsing of dates (a parameter; a failure leaves the time point as it is, as the standard says of `from_stream`), the other operations on `double` and `std::chrono::round` (parameters with the order and error bounds of IEEE 754), `Float32` and `Float64` ticks, unassigned origins and descriptors, time points outside the range of the system clock (years 1677 to 2262), the wrapped readers (`Reader`, `Multi`) |
| `Pull` | `PacketReaderImpl`, with the parts of the input port, the connection and the signal that it uses: `connect`, `disconnect`, `setListener`, notification on the same thread and by the scheduler, `enqueueLastDescriptor` | descriptors of the domain, gap packets, notification by an empty queue only, packets sent in lists, checks before connecting (removed signals, cycles), removal of ports and signals, two readers at one port at the same time, calls from several threads at once (`connected` takes no lock), packets that are no events nor data |
| `Journal` | `LoggerImpl`, `LoggerComponentImpl` and the levels of `LoggerSinkBase`: components by name, levels, flush levels, default levels from the environment, what comes out | `spdlog` itself (its level checks are modelled as documented), its thread pool, patterns, the kinds of sinks, flushing, calls from several threads at once, null arguments, the order in which components are listed (that of a hash table), names with letters beyond ASCII |
| `Files` | `LogFileInfoImpl` and its builder, their serialized form, `getLog` and `getLogFileInfos` of devices as the reference device implements them, with a file that grows | files that shrink or are replaced, errors of streams, the text form of serialized objects (modelled in `Wire` and elsewhere), that a part of 0 bytes has no characters at all, permissions and the remote calls (modelled in `Access`, `Remote`), paths that are no files, times |
| `Timer` | `TimerThread` as compiled for Linux and the parts of `ThreadEx` it uses: making, starting, stopping in steps beside the thread, waits with timeouts, lost notifications and wake-ups without reason | the variant for other systems, 32-bit casts of intervals beyond 68 years, calls of `stop` in the callback, callbacks that throw, changing the callback, several clients at once, names and priorities of threads, failures to make a thread |
| `Ping` | `ICMPHeader`, `computeChecksum`, reading of `IPv4Header`, `IcmpPing::startSend`, `handleReceive` and the condition of `waitSendAndReply`, on packets of bytes that arrive one after another | sockets, sending and its errors, hops, the second after which the wait ends, notifications, several threads of the I/O context, the use of the addresses by the module manager |

## Plan per property

| id | model | proof |
|----|-------|-------|
| C01–C07 | `Connection`: queue, cached counters, gap checker, port activity, notification | invariants by induction over op histories; witnesses where counters go stale |
| C08–C10 | `PacketStreaming/Server` | invariant: groups map = segmentation of queue; ghost history for release |
| C11–C12 | `PacketStreaming/Client` composed with the server | simulation: client state determined by history |
| C13 | `Wire`: header on bit-vectors | arithmetic over all sizes |
| C14–C16, C48 | `Wire`: config codec on byte lists, with explicit out-of-bounds outcome | round-trip and safety theorems, OOB witness |
| C17 | `Wire`: frame codec on byte lists | round trip, prefix monotonicity, bounds |
| C18–C20, C49, C50 | `Streaming` | refinement to relation client↔signal given by the history; induction over group size |
| C21, C22, C51, C52 | `DataPacket` | per-index specification of bulk loops; invariant over packet histories |
| C23–C25, C53 | `Reader/Stream…` on top of the connection model | simulation against flattened sample stream |
| C26 | `Reader/Tail…` | invariant: cache is a suffix of the stream |
| C27 | `Reader/Block…` | simulation against flattened stream |
| C28–C30 | `Security/Perm…` | fold semantics, tree induction |
| C31, C54 | `Security/Lock…` | step relation, induction over histories |
| C32 | `Security/Auth…` | decision logic |
| C33, C55 | `CoreTypes/Ratio…` | number theory over `Int`, values in `ℚ` |
| C34–C35, C56–C58 | `Component/Ids…`, `Component/Tree…` | list/tree induction |
| C36 | `Signal/Cycle…` | DFS = reachability |
| C37–C38 | `Component/Status…` | refinement to set / map |
| C39–C44 | `PropObj/…` | refinement to map with defaults; update log |
| C45 | `Expr` | the lexer finds exactly the layouts of tokens, the parser exactly the trees of a grammar by levels; both end on every input |
| C59–C61 | `PacketBuffer/…` | ring unrolled to a line of blocks, invariant by induction over operations |
| C62–C65, C73 | `Multi/…` | exact arithmetic of ticks when resolutions are commensurable; phases waiting, seeking, flowing, by induction over calls |
| C66–C72 | `Link/…` | invariants over all calls on signals, ports and connections (each call keeps ports and signals in agreement; what each call adds to the packets of a connection) |
| C74–C76 | `Lifetime/…` | invariant over all interleavings of the atomic steps of concurrent calls (the strong counter is the number of strong references held by clients and calls in progress; the weak counter that of live weak reference objects plus the object's share) |
| C77, C78 | `SmartPtr/…` | invariant over all programs that keep the rules (counter of an object = owning variables + raw references); witnesses for what goes wrong without them |
| C79–C85 | `Values/…` | structural induction over values (lists and dictionaries of any depth), refinement of dictionaries to insertion-ordered maps; witnesses for null references, hash codes by address and mixed comparisons |
| C86–C89 | `Values/Json…` | round trip by structural induction over values, including the text of interface identifiers; position of an element reader over all sequences of calls |
| C90–C91 | `Bulk/…` (layout) | induction over the packets with exact positions; witnesses for alignment, mixed rules and wide domain samples |
| C92–C93 | `Bulk/…` (lifetime) | invariant over all interleavings of atomic steps: every counter equals the references that exist, the counter of the block the objects alive; witnesses for late destruct callbacks |
| C94–C97 | `Event/…` | small-step machine whose handlers are arbitrary programs of calls; refinement to a list of subscriptions for handlers that leave the event alone; invariants over all steps for others; witnesses for self-removal, endless triggers and handlers identified by address |
| C98–C104 | `Search/…` | trees of any depth; filters as an inductive type; every listing function equated with a reachability relation by induction on the size of the tree; the ordered sets by unique ids; witnesses for negations, nested function blocks and the cast that throws |
| C105–C108 | `Mirror/…` | any number of signals and sources, messages with the server as a log; invariant: the count of every entry is the number of signals in use that need it; induction over histories that keep stated rules; witnesses for every broken rule; without rules: nothing is asked for that is not offered, packets only from the active source |
| C109 | `MirrorEv/…` | descriptor events and connections of mirrored signals; induction over histories; witnesses for silent changes |
| C110–C116 | `Remote/…` | server tree and client tree with nested property objects; simulation: equal up to whether a value is stored, for every change and all its events, then induction over histories; round trip of serialized objects; induction over trees for updates; witnesses for the rest |
| C117–C126 | `Types/…` | type manager generic over the type of types: invariant over histories, listeners; `mkStruct`, builder, enumerations: decision logic against a specification of field values; histories of builders by induction over calls; reading back by mutual induction over values, reloading of managers by induction over types; witnesses for the rest |
| C127–C133 | `Classes/…` | classes with a parent looked up by name in the type manager of C117; lookup and listing by induction over the chain of ancestors, against `nearest` and `listed`; builders by induction over calls; reloading by induction over the types of the manager; witnesses for the rest |
| C134 | `Mirror/PropsEffect` | what each call does to each signal, in any state, by unfolding and induction over the lists of signals; emptying and destroying a source with the invariant of C105 |
| C135–C145 | `Access/…` | request handlers over arbitrary components as a state-and-error monad with a trace of calls; refused requests by a calculus of checks (`Refused`, `Stops`), permissions before calls by an invariant of the trace, allowed requests by computation against a table of meant calls; addresses by induction; witnesses on a demo device |
| C146–C147 | `Remote/Effect, PropsServer` | each change on the server against a relational description over plain lists (what is edited, what stays, which events); handlers as a relation `Ran`; events of values by induction over the handlers |
| C148–C157 | `Sessions/…` | sessions, counters (64 bit, wrapping), streaming clients and list of connected clients as one state; each message as an inductive description (`Announced`, `Configured`, `Inited`, `Released`); invariants over all histories (`Inv`), over histories with announcements first (`Ord`) and with one service per session (`Lst`) |
| C158–C166 | `Notify/…` | threads that raise events and serve calls, interleaved between any two accesses of shared state; the specification (`due`, `got`) reads the trace of observations only; invariants: who sends what waits (`Inv`), sent and waiting together are what is due (`Flow`), a call that is to be replied to has nothing waiting (`Old`, `New`) |
| C167–C179 | `Config/…` | saved document and device as trees; the first pass by induction over the property object (`Objs`) and over the document (`First`), the second pass by a measure on what is to be connected and the rank of the function blocks (`Second`: `halts`), both together in `Round`; statements about any document in `Any` |
| C180–C189 | `Descr/…` | descriptors as trees of values (checks, sizes, documents) and the same objects in a memory of lists and dictionaries that can be frozen; the specification lists byte sizes, conditions and labels by membership, not by the functions of the model; sizes and buildability by induction over the tree, immutability by a relation between memories that is kept by every step |
| C190–C201 | `Sched/…` | the main loop as a step machine in which scheduling, any number of calls of `run` and `runIteration` and the works themselves interleave at the points where the mutex is free; specification over what is seen (works accepted, works run, calls begun and returned); invariants by induction over all interleavings; awaitables as a state machine over a standard future; graphs of tasks with the documented behaviour of the thread pool, completeness by well-founded induction on a finite order |
| C202–C208 | `Modes/…` | trees of components of any size and depth, with devices, the folders of sub-devices and handlers that may fail; the exact effect of `setOperationMode` and of the recursive call at every path, by induction over the tree and over the nesting of devices; who belongs to a device is specified by paths; invariants over all histories of creating, adding, removing and setting |
| C209–C226 | `Mgr/…` | the module manager: histories of loading and adding modules with any authenticator; local ids of function blocks with texts as lists of characters (`stoi`, decimal digits, last underscore); the choice among any list of modules with any answers; splitting of connection strings with its inverse; precedence of configuration values; grouping of discovered devices by induction over what is found; choice of capability and address; merging and renaming of capabilities |
| C227–C232 | `Status/…` | connection statuses of a device: invariants over all histories of adding, removing and updating; the events are specified by a follower that only sees them; streaming sources and their statuses over all histories, with the interruption of adding as separate steps |
| C233–C240 | `Sources/…` | streaming connections of a device: the loop over the capabilities as a function of what the modules make, sorted by priority; which connections signals and ports of a tree of components get when something is added or updated, as maps over all components |
| C241–C247 | `Refs/…` | reference properties, adding and removing properties: definitions with owners on a shared heap, following references with a bounded stack against an inductive relation, invariants over all sequences of calls |
| C248–C258 | `Defs/…` | property definitions: exact characterisation of what builders accept, round trip of saving and loading, clones, property types, what a write stores |
| C259–C265 | `Nest/…` | updates of nested property objects: nothing changes during an update, an update has the effect of its calls (simulation), its end, clearing of objects, effects stay within the object called |
| C266–C275 | `Opts/…` | options of an instance: documents, environment variables, command line arguments, the builder; types are kept, last fitting value, other options unchanged, order |
| C276, C277 | `Defs/PropsSelect` | selecting by value: what is offered can be selected and is read afterwards, what was written selects a value that is offered |
| C278–C285 | `Info/PropsFields`, `Info/PropsSave` | device information: user name and location shared with the device, clearing, which fields can be set, the name, custom properties, saving and restoring |
| C286–C288, C293 | `Info/PropsCaps` | capabilities of servers, their connection strings and addresses, network interfaces |
| C289–C292 | `Info/PropsClients` | numbers of connected clients, what the native streaming server registers |
| C294, C296, C300 | `Loading/PropsModes` | what update modes do to connected and missing devices, unused devices, order of devices in a configuration |
| C295, C301 | `Loading/PropsOptions` | which device update options apply to, saving and reading them |
| C297–C299 | `Loading/PropsRemap`, `Loading/PropsConn` | replacing devices, which connected device is used, where connections lead afterwards |
| C302–C304, C312, C313 | `Errors/PropsScopes` | error guards, reading and clearing recorded errors, passing on errors that were not recorded |
| C305, C306, C310, C311 | `Errors/PropsCross` | errors that cross an interface, codes without recorded error, messages of errors raised from others |
| C307–C309, C314 | `Errors/PropsInfo`, `Errors/PropsDebug` | frozen error information, its text, saving it, messages in debug builds |
| C315–C320 | `Sync/Props` | interfaces of the synchronisation component and the selected one, with updates |
| C321–C331 | `Ext/Props` | signals of a client at input ports of a device: which are accepted, numbered, streamed, mirrored and connected |
| C332–C339 | `Boxes/Props` | lists, owning lists and dictionaries: references, elements, entries, frozen containers, owners of elements |
| C340–C347 | `Clock/Props` | time points made of clock ticks: origins, order, exactness, change of descriptors |
| C348–C356 | `Pull/Props` | packet readers: order and completeness, counts, callbacks, external listeners, taking over ports |
| C357–C362 | `Journal/Props` | loggers: components by name, inherited levels, what comes out at sinks, levels from the environment |
| C363–C367 | `Files/Props` | log files of devices: parts, pieces while the file grows, lists, descriptions sent to clients, ids |
| C368–C373 | `Timer/Props` | timer threads: when calls begin, stopping and starting, delays, intervals that are set |
| C374–C377 | `Ping/Props` | pings: checksums of requests, recognising answers, the end of the wait, addresses found |
