{"id": "C01", "title": "Round trip: Unmarshal inverts Marshal", "statement": "For every message type the library accepts and every in-memory value of that type whose nesting is within the depth budget, Marshal succeeds and Unmarshal of the produced bytes into a fresh zero value of the same type succeeds and yields the same message, where \"the same\" means: equal scalars bit for bit, equal strings/bytes (an empty bytes value is the same as nil), equal lists, equal maps, the same oneof member, the same sub-messages and the same unknown-field bytes.", "quantifier": "all accepted struct types (recursive ones included), all values, all map iteration orders, all list lengths and nesting depths below the limit", "why_tests_cant": "the space of (type, value) pairs is infinite; tests pick a few structs and values and cannot cover every combination of coder, packing, pointer-ness, nesting and map order", "anchors": ["internal/prutal/encoder.go:AppendStruct", "internal/prutal/decoder.go:DecodeStruct", "internal/prutal/prutal.go:MarshalAppend,Unmarshal"]}
{"id": "C02", "title": "Size equals the length of Marshal output", "statement": "Whenever Marshal succeeds, Size succeeds and returns exactly the number of bytes Marshal produced; whenever Marshal of a non-nil message fails, Size fails too.", "quantifier": "all accepted struct types, all values, all map iteration orders (Size and Marshal may see different orders)", "why_tests_cant": "the sizer is a second, independently written traversal with its own fast paths; agreement must hold for every value, not for sampled ones", "anchors": ["internal/prutal/sizer.go:SizeStruct", "internal/prutal/encoder.go:AppendStruct", "internal/wire/size.go", "internal/wire/size_map.go"]}
{"id": "C03", "title": "MarshalAppend only appends", "statement": "MarshalAppend(b, v) returns b followed by exactly the bytes Marshal(v) returns; the existing contents of b are neither changed nor consulted, although nested messages are written by back-patching lengths inside the buffer.", "quantifier": "all buffers, all accepted struct types, all values", "why_tests_cant": "back-patching shifts bytes inside the shared buffer; that it never reaches the prefix is an invariant over all lengths and nestings", "anchors": ["internal/prutal/prutal.go:MarshalAppend", "internal/wire/encoder.go:LenReserve,LenPack,lenPackSlow"]}
{"id": "C04", "title": "All varint writers produce the canonical base-128 encoding", "statement": "Every varint writing routine (loop, unrolled, small-number, 32 bit, sign-extending, zigzag) outputs, for every value, the unique shortest base-128 little-endian encoding of the corresponding unsigned 64-bit value, and the reported varint size is its length.", "quantifier": "all 2^64 (2^32) input values and all buffer prefixes", "why_tests_cant": "six separately unrolled implementations over 2^64 values cannot be enumerated", "anchors": ["internal/protowire/wire.go:AppendVarint,SizeVarint", "internal/wire/encoder.go:AppendVarint,AppendVarintSmall,UnsafeAppendVarintU64,UnsafeAppendVarintI32,UnsafeAppendVarintU32,UnsafeAppendZigZag64,UnsafeAppendZigZag32"]}
{"id": "C05", "title": "Varint decoding is total, exact and never over-reads", "statement": "For every byte string, varint decoding either reports truncation (no terminating byte among the available bytes), reports overflow (more than 64 bits), or returns the base-128 value of the shortest terminated prefix together with that prefix length; it depends on no byte after the terminator, and it inverts every varint writer for any trailing data.", "quantifier": "all byte strings, all values, all suffixes", "why_tests_cant": "arbitrary network bytes; the unrolled arithmetic with subtractive masking must be right for each of the 2^80 ten-byte prefixes", "anchors": ["internal/protowire/wire.go:ConsumeVarint"]}
{"id": "C06", "title": "ZigZag is a bijection between signed and unsigned integers", "statement": "ZigZag encoding maps each signed 64-bit integer n to 2n (n>=0) or -2n-1 (n<0) and decoding is its two-sided inverse; the same holds for sint32 through the 32-bit encoder and the 64-bit decoder followed by truncation.", "quantifier": "all 64-bit and 32-bit integers", "why_tests_cant": "2^64 inputs", "anchors": ["internal/protowire/wire.go:EncodeZigZag,DecodeZigZag", "internal/wire/encoder.go:UnsafeAppendZigZag32,UnsafeAppendZigZag64", "internal/wire/decoder_packed.go"]}
{"id": "C07", "title": "Fixed-width values are little-endian and survive bit for bit", "statement": "fixed32/fixed64/sfixed/float/double values are written as 4/8 little-endian bytes and reading returns the same bit pattern (NaN payloads and negative zero included); reading fails exactly when fewer than 4/8 bytes are available.", "quantifier": "all bit patterns, all suffixes", "why_tests_cant": "2^64 bit patterns", "anchors": ["internal/protowire/wire.go:AppendFixed32,ConsumeFixed32,AppendFixed64,ConsumeFixed64", "internal/wire/encoder.go:UnsafeAppendFixed32,UnsafeAppendFixed64"]}
{"id": "C08", "title": "Field tags round trip and invalid field numbers are rejected", "statement": "For every valid field number (1..2^29-1) and wire type, encoding a tag and consuming it gives back the same number and type and the right length; consuming rejects number 0 and numbers beyond the 32-bit range and otherwise returns number = key>>3, type = key&7.", "quantifier": "all field numbers, all wire types, all byte strings", "why_tests_cant": "2^29 field numbers x all suffixes", "anchors": ["internal/protowire/wire.go:AppendTag,ConsumeTag,EncodeTag,DecodeTag,SizeTag", "internal/wire/wire.go:EncodeTag,AppendVarintSmall"]}
{"id": "C09", "title": "Length back-patching yields a correct length prefix", "statement": "Reserving one byte, appending any payload, and packing the length yields prefix ++ canonical-varint(len payload) ++ payload for every payload length, including those whose length needs two or more bytes.", "quantifier": "all prefixes and payloads of any size", "why_tests_cant": "payload sizes are unbounded; the slow path shifts overlapping memory", "anchors": ["internal/wire/encoder.go:LenReserve,LenPack,lenPackSlow"]}
{"id": "C10", "title": "Packed scalar lists round trip", "statement": "For each packable scalar kind, packing any non-empty list and unpacking the payload returns the same list; each packed block has exactly its declared length.", "quantifier": "all lists of all lengths, all packable kinds", "why_tests_cant": "unbounded lists; fast paths for 1- and 2-byte varints differ from the general path", "anchors": ["internal/wire/encoder_packed.go", "internal/wire/decoder_packed.go"]}
{"id": "C11", "title": "Packed and unpacked encodings of a repeated field are interchangeable on input", "statement": "As protobuf requires, a parser accepts a repeated scalar field in packed, unpacked or mixed form (several packed blocks included) whatever the declared form, and the elements are concatenated in order.", "quantifier": "all splittings of a list into packed blocks and single elements", "why_tests_cant": "arbitrarily many ways of splitting the list", "anchors": ["internal/prutal/decoder.go:DecodeStruct (repeated branch)", "internal/wire/decoder_packed.go"]}
{"id": "C12", "title": "Unknown fields are preserved verbatim and re-emitted", "statement": "When the target type has unknown-field storage, after Unmarshal(b) the storage holds exactly the concatenation, in order, of the byte ranges (tag included) of the records of b whose number is not a field of the type, and Marshal appends that storage after all known fields; without storage they are skipped and the other fields are unaffected.", "quantifier": "all inputs accepted by Unmarshal, any number and order of unknown records", "why_tests_cant": "arbitrary interleavings of known and unknown records of arbitrary content, groups included", "anchors": ["internal/prutal/decoder.go:resetUnknownFields,appendToUnknownFields,DecodeStruct", "internal/prutal/encoder.go:appendUnknownFields"]}
{"id": "C13", "title": "Skipping an unknown field consumes exactly one well-formed record", "statement": "Skipping a field value succeeds with length n exactly when the first n bytes are one well-formed value of that wire type (properly nested groups with matching end tags included, nesting depth at most 10001); it never reports more bytes than available, and its answer does not depend on what follows.", "quantifier": "all byte strings, all field numbers and wire types", "why_tests_cant": "unbounded nesting of groups and arbitrary bytes", "anchors": ["internal/protowire/wire.go:ConsumeFieldValue,consumeFieldValueD,ConsumeField"]}
{"id": "C14", "title": "Known fields are written in ascending field-number order", "statement": "In the output of Marshal the records produced by declared fields appear in non-decreasing order of field number (also inside sub-messages), oneof members included, followed by the unknown bytes.", "quantifier": "all accepted struct types with any declaration order, all values", "why_tests_cant": "any declaration order and any oneof placement", "anchors": ["internal/desc/desc.go:parseStruct", "internal/prutal/encoder.go:AppendStruct"]}
{"id": "C15", "title": "Order independence of records of different fields", "statement": "Swapping two adjacent records with different declared (non-oneof-sharing) field numbers, or a declared and an undeclared one, in the input changes neither success of Unmarshal nor the resulting message.", "quantifier": "all inputs, all adjacent pairs of records", "why_tests_cant": "all permutations of all inputs", "anchors": ["internal/prutal/decoder.go:DecodeStruct"]}
{"id": "C16", "title": "Decoding a concatenation equals decoding the parts in sequence", "statement": "Unmarshal(b1++b2) into a target equals Unmarshal(b1) followed by continuing with b2 on the same target (unknown fields of both parts accumulate); b1 failing makes the whole fail.", "quantifier": "all pairs of byte strings b1, b2 where b1 is a sequence of whole records, all starting values", "why_tests_cant": "every split point of every input", "anchors": ["internal/prutal/decoder.go:DecodeStruct", "internal/prutal/prutal.go:Unmarshal"]}
{"id": "C17", "title": "Last occurrence wins for singular scalar fields", "statement": "If several records for the same singular scalar/string/bytes field occur, the decoded value is that of the last one.", "quantifier": "all inputs, all positions of the occurrences", "why_tests_cant": "arbitrary many occurrences at arbitrary positions", "anchors": ["internal/prutal/decoder.go:DecodeStruct"]}
{"id": "C18", "title": "Map decoding: last entry for a key wins, other entries are kept", "statement": "Decoding a sequence of map entries yields the map obtained by inserting the entries one by one; each key has the value of its last entry.", "quantifier": "all sequences of entries, all key/value kinds", "why_tests_cant": "unbounded sequences; 49 specialised decoders plus the generic one", "anchors": ["internal/prutal/decoder.go:DecodeMapPair", "internal/wire/decoder_map.go"]}
{"id": "C19", "title": "Truncated input is never silently accepted", "statement": "If b is accepted, a proper prefix of b that cuts through a record is rejected with an error; a prefix is accepted exactly at record boundaries.", "quantifier": "all inputs, all cut points", "why_tests_cant": "every cut point of every input (crash while sending)", "anchors": ["internal/prutal/decoder.go:DecodeStruct", "internal/protowire/wire.go"]}
{"id": "C20", "title": "Marshal and Size stop at the depth limit", "statement": "Marshal and Size fail with the max-depth error exactly when the message is nested deeper than the limit (1000 levels); in particular they terminate on every value, including cyclic pointer graphs.", "quantifier": "all values, all object graphs including cyclic ones", "why_tests_cant": "unbounded and cyclic graphs", "anchors": ["internal/prutal/encoder.go:AppendStruct", "internal/prutal/sizer.go:SizeStruct", "internal/prutal/errors.go:defaultRecursionMaxDepth"]}
{"id": "C21", "title": "Unmarshal bounds the nesting depth of its input", "statement": "Unmarshal fails with the max-depth error when the input nests messages deeper than the limit, whatever mixture of singular, repeated and map fields is used, so hostile input cannot drive unbounded recursion.", "quantifier": "all inputs", "why_tests_cant": "hostile inputs of any depth and any mixture of hops", "anchors": ["internal/prutal/decoder.go:DecodeStruct,DecodeMapPair,DecodeMapValue"]}
{"id": "C22", "title": "Whatever Marshal accepts, Unmarshal accepts (depth symmetry)", "statement": "The depth limits of Marshal and Unmarshal are the same: any message Marshal can encode can be decoded again by the same library.", "quantifier": "all values with any mixture of hops", "why_tests_cant": "needs values at exactly the depth limit through every mixture of hops", "anchors": ["internal/prutal/encoder.go:AppendMapField", "internal/prutal/decoder.go:DecodeMapPair"]}
{"id": "C23", "title": "Unmarshal is total: no panic, no out-of-range access", "statement": "For every accepted message type and every byte string, Unmarshal terminates and returns normally (nil or an error): it never indexes outside the input, never dereferences nil and never reaches an internal \"[BUG]\" panic.", "quantifier": "all accepted types, all byte strings", "why_tests_cant": "fuzzing samples the byte strings; the claim is over all of them", "anchors": ["internal/prutal/decoder.go:DecodeStruct,DecodeMapKey,DecodeMapValue,DecodeMapPair"]}
{"id": "C24", "title": "Wire-type mismatch on a declared field is an error", "statement": "A record whose number is declared but whose wire type is not acceptable for the declaration makes Unmarshal fail.", "quantifier": "all fields, all wire types, all payloads", "why_tests_cant": "all pairs (declared kind, received wire type) at every position", "anchors": ["internal/prutal/decoder.go:DecodeStruct"]}
{"id": "C25", "title": "Booleans: any non-zero value on the wire is true, uniformly", "statement": "A bool received as singular field, packed or unpacked list element, map key or map value is true exactly when its varint is non-zero, as the protobuf specification requires.", "quantifier": "all varint values and all contexts", "why_tests_cant": "three separate decoding routes over 2^64 values", "anchors": ["internal/prutal/decoder.go:DecodeStruct,DecodeMapKey,DecodeMapValue", "internal/wire/decoder_map.go:decodeMap_Bool", "internal/wire/decoder_packed.go:DecodePackedBool"]}
{"id": "C26", "title": "Oneof: the set member survives a round trip", "statement": "At most one member of a oneof is ever encoded and decoded; a oneof with a member set (whatever its value, zero included) decodes to the same member with the same value; the last member on the wire wins.", "quantifier": "all oneof values, all inputs", "why_tests_cant": "all members x all values, zero included", "anchors": ["internal/prutal/encoder.go:AppendStruct (oneof branch)", "internal/prutal/decoder.go:DecodeStruct (oneof branch)", "internal/desc/utils.go:searchOneofWrappers"]}
{"id": "C27", "title": "Field lookup finds exactly the declared fields", "statement": "Looking up a field number in a parsed message type returns the declaration with that number if there is one and nothing otherwise, for dense, sparse and very large numbers alike; lookup order and previous lookups do not matter.", "quantifier": "all declared field sets, all 32-bit numbers", "why_tests_cant": "two lookup structures with a threshold at 1000 and a last-field cache", "anchors": ["internal/desc/desc.go:GetField,parseStruct", "internal/prutal/decoder.go:DecodeStruct (cache)"]}
{"id": "C28", "title": "Duplicate field numbers are rejected", "statement": "Parsing a message type fails if two fields (oneof members included) have the same number and otherwise the fields are kept, each once, in ascending order of number.", "quantifier": "all field sets", "why_tests_cant": "any declaration order, any oneof placement", "anchors": ["internal/desc/desc.go:parseStruct"]}
{"id": "C29", "title": "Specialised map encoders agree with the generic one", "statement": "For each key/value kind having a specialised map encoder, decoder or sizer, its effect equals that of the generic reflective path on all maps and inputs produced by Marshal.", "quantifier": "all maps, all iteration orders, all kinds", "why_tests_cant": "72+49+90 specialised routines x all maps", "anchors": ["internal/wire/encoder_map.go", "internal/wire/decoder_map.go", "internal/wire/size_map.go", "internal/prutal/encoder.go:AppendMapField", "internal/prutal/decoder.go:DecodeMapPair", "internal/prutal/sizer.go:sizeMapField"]}
{"id": "C30", "title": "The last-field cache of the decoder is unobservable", "statement": "Unmarshal gives the same result as a decoder that looks every field up afresh.", "quantifier": "all inputs, all types", "why_tests_cant": "all sequences of field numbers", "anchors": ["internal/prutal/decoder.go:DecodeStruct"]}
{"id": "C31", "title": "Arena allocation hands out aligned, in-bounds, disjoint blocks", "statement": "In any sequence of allocations done while decoding, each returned block lies inside a live arena block or is a dedicated allocation, is aligned as requested and overlaps no earlier block.", "quantifier": "all sequences of (size, alignment) requests", "why_tests_cant": "any history of requests", "anchors": ["internal/prutal/span.go:Malloc,init", "internal/prutal/decoder.go:Malloc"]}
{"id": "C32", "title": "The type cache behaves like a map under concurrent readers", "statement": "A lookup in the message-type cache concurrent with insertions returns either nothing or the entry inserted for that type, never another type's entry, and once an insertion has returned every later lookup finds it.", "quantifier": "all histories of insertions and lookups, all interleavings, all hash collisions", "why_tests_cant": "interleavings and hash collisions", "anchors": ["internal/desc/map.go:Get,Set", "internal/desc/desc.go:CacheGet,GetOrParse"]}
{"id": "C33", "title": "Accepting a type does not depend on history", "statement": "Whether a type is accepted, and how it is encoded, depends only on the type, not on which other types were used before (also unsuccessfully).", "quantifier": "all histories of uses of types, mutually recursive types included", "why_tests_cant": "all histories", "anchors": ["internal/desc/desc.go:GetOrParse,parse,FinalizeFields", "internal/desc/type.go:parseType"]}
{"id": "C34", "title": "Struct tag parsing recovers number, encoding and flags", "statement": "For every tag string of the form the generators produce - encoding, number, and options such as rep, packed, proto3, name=, json=, enum=, oneof, def= in any order - the runtime recovers exactly that encoding, number and the repeated/packed flags, whatever text the options contain.", "quantifier": "all tag strings", "why_tests_cant": "option texts are arbitrary strings", "anchors": ["internal/desc/tag.go:parseStructTag,parseKVTag"]}
{"id": "C35", "title": "Only types the codec can handle safely are accepted", "statement": "If a struct type with tags is accepted then for every field the declared encoding is consistent with the Go type, so that encoding and decoding any value of it never reinterprets memory at a wrong type. Which types are accepted is determined by the tags and the Go types of the fields alone, by the table of encodings and Go types and the rules for rep, packed and maps.", "quantifier": "all struct types and tags", "why_tests_cant": "all combinations of Go types and tags", "anchors": ["internal/desc/desc.go:checkTypeMatch,parseStruct", "internal/desc/type.go:parseType", "internal/desc/utils.go"]}
{"id": "C36", "title": "Marshal is deterministic without maps; maps only permute entries", "statement": "Two Marshal calls on equal messages without multi-entry maps return identical bytes; with maps the outputs have equal length and decode to the same message.", "quantifier": "all values, all map iteration orders", "why_tests_cant": "all iteration orders of all maps", "anchors": ["internal/prutal/encoder.go:AppendMapField", "internal/wire/encoder_map.go"]}
{"id": "C37", "title": "Output conforms to the protobuf wire format", "statement": "The output of Marshal is a sequence of well-formed wire records and equals what an independent definition of the protobuf encoding of that message prescribes.", "quantifier": "all accepted types, all values", "why_tests_cant": "all values", "anchors": ["internal/prutal/encoder.go:AppendStruct"]}
{"id": "C38", "title": "Zero values are omitted, explicit presence is kept", "statement": "A singular non-pointer scalar/string/bytes field is emitted exactly when it is not the zero value; a pointer scalar field is emitted exactly when it is non-nil (zero included); an empty list or map emits nothing.", "quantifier": "all types, all values", "why_tests_cant": "all combinations of presence and values", "anchors": ["internal/prutal/encoder.go:AppendStruct (skipzero)", "internal/desc/desc.go:parse"]}
{"id": "C39", "title": "Nil messages are treated consistently by Marshal and Size", "statement": "For nil and typed-nil arguments Size agrees with Marshal: if Marshal succeeds with n bytes then Size returns n; if Marshal fails so does Size.", "quantifier": "nil interface, typed nil pointers of all accepted types", "why_tests_cant": "all types at the nil corner", "anchors": ["internal/prutal/prutal.go:MarshalAppend,Size,Unmarshal"]}
{"id": "C40", "title": "Groups: appending then consuming returns the payload", "statement": "For any field number and payload that is a sequence of well-formed records, consuming a group written by the group writer returns exactly the payload and the group length; non-canonical (padded) end tags are handled.", "quantifier": "all field numbers, all payloads", "why_tests_cant": "unbounded payloads; the end tag is trimmed backwards from the end", "anchors": ["internal/protowire/wire.go:AppendGroup,ConsumeGroup,SizeGroup"]}
{"id": "C41", "title": "Repeated-field growth keeps all elements in order", "statement": "Decoding any number of elements of a repeated field into any initial slice yields the initial elements followed by the decoded ones, whatever reallocations happen; capacity never falls below length.", "quantifier": "all element counts, all initial slices (len, cap)", "why_tests_cant": "unbounded element counts", "anchors": ["internal/prutal/decoder.go:ReallocSlice,DecodeStruct (repeated branch)"]}
{"id": "C42", "title": "Generated struct tags mean to the runtime what the schema says", "statement": "For every field declaration of a .proto file, the struct tag prutalgen emits is parsed by the runtime to the same field number, wire encoding, repeated and packed flags as declared.", "quantifier": "all field declarations (numbers, types, labels, names, packed options)", "why_tests_cant": "all combinations of names and options", "anchors": ["prutalgen/pkg/prutalgen/code.go:FieldStructTag", "prutalgen/pkg/prutalgen/field.go:IsPackedEncoding", "prutalgen/pkg/prutalgen/type.go:EncodingType", "internal/desc/tag.go:parseStructTag"]}
{"id": "C43", "title": "Schema verification rejects reserved and duplicate numbers and names", "statement": "A file passes verification exactly when in every message and enum the numbers are distinct (enums may alias with allow_alias), none lies in a reserved range, and none lies in 19000..19999 (also for enums). Names that are reserved or used twice and field numbers outside 1..2^29-1 should be rejected too.", "quantifier": "all messages/enums with any reserved ranges", "why_tests_cant": "all range combinations incl. max and negative bounds", "anchors": ["prutalgen/pkg/prutalgen/message.go:verify", "prutalgen/pkg/prutalgen/enum.go:verify", "prutalgen/pkg/prutalgen/reserved.go:In"]}
{"id": "C44", "title": "Loading: files in dependency order, exactly when imports are acyclic", "statement": "Loading a file succeeds exactly when no file that it reaches is missing and no import cycle is reachable; the result contains every reachable file once, the requested file first, and every file before the files it imports.", "quantifier": "all finite sets of files with any import graph", "why_tests_cant": "all graphs, including diamonds, cycles and missing files", "anchors": ["prutalgen/pkg/prutalgen/utils.go:sortProtoFiles", "prutalgen/pkg/prutalgen/prutalgen.go:LoadFile"]}
{"id": "C45", "title": "Generated members of a message do not collide", "statement": "In the Go type of a message, the fields, the fields that hold oneofs, the getters of fields and oneofs and the fixed methods all have different names, which differ from the CamelCase names only in appended underscores.", "quantifier": "all messages with any field and oneof names", "why_tests_cant": "all multisets of names, including names that ask for the name another one is moved to", "anchors": ["prutalgen/pkg/prutalgen/message.go:resolveFieldConflicts,resolveOneofTypeConflicts"]}
{"id": "C46", "title": "Generated names are valid exported Go identifiers", "statement": "For every protobuf identifier, and every dotted path of them, the generated Go name is an exported Go identifier; two identifiers get the same Go name exactly when they differ only in the case of the first letter, `_x` against `X`, the case of a letter after a digit, or `_` against `X` at the start; Go names are stable under the conversion.", "quantifier": "all protobuf identifiers", "why_tests_cant": "unbounded strings", "anchors": ["prutalgen/internal/protobuf/strs/strings.go:GoCamelCase"]}
{"id": "C47", "title": "Options: the last setting wins; directives are recognised exactly", "statement": "Looking up an option returns the value of its last occurrence and reports absence exactly when it does not occur; the directives of a comment are exactly the comma separated items of its prutalgen lines, and a switch is on exactly when its name, and not its negation, was given.", "quantifier": "all option lists / comments", "why_tests_cant": "all lists", "anchors": ["prutalgen/pkg/prutalgen/option.go:Get,Is", "prutalgen/pkg/prutalgen/directive.go:Has,IsSet,Parse"]}
{"id": "C48", "title": "String literal decoding inverts escaping", "statement": "Decoding a string constant of a .proto file returns exactly the bytes it denotes under the escaping rules of the language, for single and for adjacent literals; every string of bytes can be written as a literal that decodes to it; text that is not a literal is rejected.", "quantifier": "all byte strings as input, all values", "why_tests_cant": "the escapes nest with UTF-8, surrogate pairs and digit runs of variable length; the inputs are unbounded byte strings", "anchors": ["prutalgen/internal/protobuf/text/decode_string.go"]}
{"id": "C49", "title": "Enum name and value tables are consistent", "statement": "The generated number-to-name table maps each number to a name declared with it, and the name-to-number table maps each declared name to its number, aliases included.", "quantifier": "all enums", "why_tests_cant": "all alias patterns", "anchors": ["prutalgen/pkg/prutalgen/enum.go", "prutalgen/pkg/prutalgen/code.go:EnumGen"]}
{"id": "C50", "title": "Unmarshal accepts exactly the inputs described by an independent decoding relation", "statement": "Unmarshal succeeds with result w exactly when the input is a sequence of whole records whose values, record by record, take the target to w according to an independently stated relation (scalars by their varint / little-endian / length-delimited meaning, lists appended, map entries inserted, sub-messages decoded recursively, undeclared records collected); the result is again a value of the type.", "quantifier": "all supported message types, all byte strings, all target values", "why_tests_cant": "Tests exercise some accepted and some rejected inputs; that no other input is accepted, and that every described input is, concerns all byte strings.", "anchors": ["internal/prutal/decoder.go:73-300", "internal/prutal/prutal.go:73-87"]}
{"id": "C51", "title": "Decoding Marshal's output and marshalling again is stable", "statement": "For types that hold sub-messages by pointer (or by value in structs that are not 1, 4 or 8 bytes large), marshalling the message obtained by unmarshalling Marshal's output gives output of the same length, and identical output if no map in the message has two or more entries; this holds even where the round trip loses oneof members set to default values.", "quantifier": "all such message types, all values within the depth budget", "why_tests_cant": "Stability has to hold for every value, including the ones on which the round trip itself is lossy; tests compare a handful.", "anchors": ["internal/prutal/prutal.go:29-87", "internal/prutal/encoder.go", "internal/prutal/decoder.go"]}
{"id": "C52", "title": "Whatever was decoded can be encoded and decoded again", "statement": "After Unmarshal of any accepted input into a zero value, the unknown-field storage of the message and of every message in it holds whole well-formed records of undeclared fields; marshalling the result and unmarshalling that output again gives the same message, unknown bytes included (oneof members received with a default value may be lost).", "quantifier": "all supported message types, all accepted byte strings within the depth budget", "why_tests_cant": "The input is an arbitrary byte string, not necessarily produced by Marshal: non-canonical varints, repeated and unordered records, nested unknown groups.", "anchors": ["internal/prutal/decoder.go:73-300", "internal/prutal/encoder.go"]}
{"id": "C53", "title": "Integer literals mean the value the protobuf language gives them", "statement": "Wherever an integer literal may stand (field numbers, enum values, reserved ranges), decimal, octal and hexadecimal literals are read as the number they denote, and literals outside of the range are rejected.", "quantifier": "all literals: all digit strings in the three notations, with sign where allowed", "why_tests_cant": "unbounded literals; three notations, signs and the edges of the range at several places of use", "anchors": ["prutalgen/pkg/prutalgen/utils.go:unmarshalConst,parseI32", "prutalgen/internal/protobuf/text", "prutalgen/pkg/prutalgen/reserved.go:ExitReserved", "prutalgen/pkg/prutalgen/enum.go:ExitEnumField"]}
{"id": "C54", "title": "Distinct declarations get distinct Go type names", "statement": "Two messages or enums declared in one file, and the wrapper structs of oneof members, have different Go type names.", "quantifier": "all files with any nesting of messages, enums and oneofs", "why_tests_cant": "all nestings and names", "anchors": ["prutalgen/pkg/prutalgen/message.go:resolve,resolveOneofTypeConflicts", "prutalgen/pkg/prutalgen/field.go:OneofStructName"]}
{"id": "C55", "title": "Type names refer to the declaration the scoping rules choose", "statement": "The type name of a field resolves to the declaration that the protobuf scoping rules choose (innermost scope first, then enclosing messages, the file's package and outer packages, own file and imports), and generated code refers to it in the Go package for which the declaration is generated. A name that denotes nothing is rejected.", "quantifier": "all sets of files, imports (public or not), nestings of messages, packages and names", "why_tests_cant": "depends on the whole tree of declarations and import graph, which are unbounded; tests cover a few layouts", "anchors": ["prutalgen/pkg/prutalgen/type.go:121", "prutalgen/pkg/prutalgen/message.go:99", "prutalgen/pkg/prutalgen/proto.go:84"]}
{"id": "C56", "title": "Generated message code implements the messages of the proto file", "statement": "For every message declared in the proto files the generated Go struct, once compiled, is written and read by the library as protobuf prescribes for the declared message: each declared field has a Go field (or oneof wrapper) with the declared number, wire encoding, packing and presence, members of one oneof share one interface, there are no other wire fields, and unknown fields are kept where the user asks for it.", "quantifier": "all sets of proto files (editions, nesting, imports, options, directives), all values of the generated types, all input bytes", "why_tests_cant": "connects two unbounded domains: all proto files and all values of the types generated for them; tests compare the generated text of a few files", "anchors": ["prutalgen/pkg/prutalgen/code.go:MessageGen,FieldGen,OneofGen,FieldStructTag", "prutalgen/pkg/prutalgen/field.go:GoTypeName,IsPointer", "prutalgen/pkg/prutalgen/message.go:genUnknownFields,resolveFieldConflicts", "internal/desc/desc.go"]}
{"id": "C57", "title": "Getters return the value of the field, or its zero value", "statement": "Every field of every generated message has a getter, named after the Go field, that returns what the field holds (for fields with presence, what the pointer points to; for oneof members, what the oneof holds if it holds that member); on a nil message and for an unset field it returns the zero value of the field's type (the declared default in proto2), and never panics on values without nil oneof wrappers.", "quantifier": "all sets of proto files, all messages and fields in them, all values of the generated types including nil", "why_tests_cant": "the getter depends on type, presence, oneof, enum values and naming; tests call a few getters of a few messages", "anchors": ["prutalgen/pkg/prutalgen/code.go:230-265", "prutalgen/pkg/prutalgen/field.go:GoZero"]}
{"id": "C58", "title": "Every package a generated file mentions is imported, under the name used, and nothing else is", "statement": "The import declaration of a generated file is well-formed Go; it imports every path at most once, imports exactly the packages that the code of the file mentions, and every qualified name in the file refers to the package it was meant to refer to (not to another import, and not to a local variable).", "quantifier": "all sets of proto files and generation options; for the writer itself all sequences of package uses in any map iteration order", "why_tests_cant": "which packages are used depends on field types, options, getters and enums across files; a missing, unused or ambiguous import only shows for particular combinations of packages", "anchors": ["prutalgen/pkg/prutalgen/codewriter.go:UsePkg", "prutalgen/pkg/prutalgen/codewriter.go:genImports", "prutalgen/pkg/prutalgen/type.go:GoImport", "prutalgen/pkg/prutalgen/code.go"]}
{"id": "C59", "title": "Each comment is attached to the one declaration it belongs to", "statement": "When the generator reads a proto file, a declaration is given exactly the comments that stand directly above it (its head comment) and directly behind it (its inline comment) and that no earlier declaration has taken, in the order of the file and with surrounding white space removed; no comment is given to two declarations, and no comment at those places is lost. The comment behind an enum is copied into the generated file unchanged.", "quantifier": "all token sequences of a proto file (any number and mix of line comments, block comments, white space and visible tokens) and all sequences of declarations read from it", "why_tests_cant": "the result depends on all the comments taken before and on arbitrary interleavings of comments and white space; tests look at a few fixed files and do not contain comments with % in them", "anchors": ["prutalgen/pkg/prutalgen/comment.go:38-122", "prutalgen/internal/antlr/common_token_stream.go:243-288", "prutalgen/pkg/prutalgen/code.go:133-140"]}
{"id": "C60", "title": "Generated code declares every type it uses", "statement": "Every Go type that the code generated for a set of proto files uses in a struct field or oneof wrapper is declared by the code generated for these files, under the name and in the Go package by which it is used; and the types declared are exactly those of the messages and enums of the proto files.", "quantifier": "all sets of proto files whose type names the generator finds, whatever their names, packages, nesting and imports", "why_tests_cant": "a missing declaration shows only when a type of that nesting, in that file, is used by a field; the generator walks declarations and uses independently of each other", "anchors": ["prutalgen/pkg/prutalgen/code.go:112-131", "prutalgen/pkg/prutalgen/code.go:182-291", "prutalgen/pkg/prutalgen/type.go:46-79", "prutalgen/pkg/prutalgen/type.go:121-201"]}
{"id": "C61", "title": "Generated files start with the marker for generated code and a command line that can be repeated", "statement": "A generated file starts with the line by which Go tools recognise generated code, then the command line as a comment that a shell reads back as exactly the arguments of the program, then the package clause, the import declaration and the code, whatever these contain.", "quantifier": "all lists of program arguments, package names, import declarations and generated code", "why_tests_cant": "quoting and the replacement of the place holder for imports depend on arbitrary text in the arguments", "anchors": ["prutalgen/pkg/prutalgen/code.go:49-59", "prutalgen/pkg/prutalgen/code.go:80-88", "prutalgen/pkg/prutalgen/codewriter.go:60-75", "prutalgen/pkg/prutalgen/codewriter.go:146-172"]}
{"id": "C62", "title": "Every proto file has its own output file, below the output directory", "statement": "With paths=import the code for name.proto goes to name.pb.go in the directory named by the import path of its Go package, below the output directory; with paths=source_relative to the file of the same name at the same relative path below the output directory; and the code for different proto files goes to different files.", "quantifier": "all paths of proto files, import paths and output directories (relative, absolute, with . and .. and repeated slashes)", "why_tests_cant": "paths are arbitrary strings that are joined and cleaned; a collision only shows for particular pairs of files", "anchors": ["prutalgen/pkg/prutalgen/code.go:61-78", "prutalgen/pkg/prutalgen/prutalgen.go:72-76", "prutalgen/main.go:39-72"]}
{"id": "C63", "title": "Options for Go packages mean what they mean to protoc", "statement": "The -go_opt parameters paths=... and Mfile=package are read as protoc reads them (several options, several parameters in an option, the last one counts); the Go package of a file is the one the user gives with M, or else the one of its option go_package; import path and package name are separated by a semicolon, and the name is the last element of the import path if there is none; there is an error when neither is given.", "quantifier": "all lists of options, files and go_package options", "why_tests_cant": "precedence between and spelling of options are arbitrary text; tests look at a few fixed option lists", "anchors": ["prutalgen/pkg/utils/args/go_opts.go:31-59", "prutalgen/pkg/prutalgen/proto.go:72-82", "prutalgen/pkg/prutalgen/prutalgen.go:202", "prutalgen/pkg/prutalgen/prutalgen.go:256-262"]}
{"id": "C64", "title": "What is loaded is what is written", "statement": "Loading a proto file succeeds exactly when its edition is known, it has at most one package statement, its numbers fit into 32 bits, its string literals are well formed, its option statements have allowed values and required is used in proto2 only; and the loaded tree then has every import, option, enum, enum value, message, nested message, field, map field, oneof, reserved range, service and method that is written, nested as written, in the order written, with the number, label, type name, options, comments directives and streams written; otherwise the generator stops with a message.", "quantifier": "all parse trees (any nesting, any number of declarations in any order) with reserved ranges in decimal", "why_tests_cant": "the listeners keep stacks and current objects; an interleaving of nested declarations that attaches something to the wrong parent is one of infinitely many tree shapes", "anchors": ["prutalgen/pkg/prutalgen/message.go:226-252", "prutalgen/pkg/prutalgen/enum.go:154-210", "prutalgen/pkg/prutalgen/field.go:290-367", "prutalgen/pkg/prutalgen/oneof.go:45-50", "prutalgen/pkg/prutalgen/option.go:62-105", "prutalgen/pkg/prutalgen/reserved.go:50-86", "prutalgen/pkg/prutalgen/proto.go:171-211", "prutalgen/pkg/prutalgen/service.go:75-121"]}
{"id": "C65", "title": "Methods have the message types and streams that are written", "statement": "For every service in a proto file, the loaded methods are those written, in order, with their streaming flags; request and response are the messages which the scoping rules choose for the names written; scalar types and enums are rejected; services and methods are declared once and have distinct Go names.", "quantifier": "all files, services, methods, names and imports", "why_tests_cant": "name resolution depends on all declarations and imports around; tests look at single services", "anchors": ["prutalgen/pkg/prutalgen/service.go:26-121", "prutalgen/pkg/prutalgen/type.go:121-201"]}
{"id": "C66", "title": "Options that decide about encoding have allowed values", "statement": "If packed, allow_alias, features.repeated_field_encoding or features.field_presence is given a value that the option cannot have, the generator stops with a message, wherever the option stands.", "quantifier": "all files, all places of options (file, message, enum, oneof, service, method, field), all values", "why_tests_cant": "the check must be made on every path by which an option reaches the tree; a missed place silently gives a default", "anchors": ["prutalgen/pkg/prutalgen/option.go:62-129", "prutalgen/pkg/prutalgen/field.go:290-320", "prutalgen/pkg/prutalgen/enum.go:180-210"]}
{"id": "C67", "title": "The gRPC codec is the protobuf encoding", "statement": "The codec is called proto, its Marshal gives the bytes which Marshal gives, and a message that is written with the codec is read back by it unchanged.", "quantifier": "all message types, values and byte strings", "why_tests_cant": "the statement is about all values of all types, and the codec replaces the standard one on the other side of a connection", "anchors": ["pkg/grpccodec/grpccodec.go:30-45"]}
{"id": "C68", "title": "A decoded message does not share memory with the input", "statement": "After Unmarshal, all memory that can be reached from the message was reachable from it before the call or is new; in particular a new message has no part of the input buffer, so the caller may overwrite or reuse the buffer and the message stays what it is.", "quantifier": "all message types, input buffers, target messages, and memories (also with sharing and cycles)", "why_tests_cant": "aliasing shows only when a buffer is reused later; a test would have to mutate every byte after every possible decode", "anchors": ["internal/prutal/decoder.go:45-88", "internal/prutal/decoder.go:248-268", "internal/prutal/decoder.go:491-512", "prutal.go:73-87"]}
{"id": "C69", "title": "Unmarshal writes to nothing but the message", "statement": "Unmarshal changes only the message it is given, the memory that belongs to it (the arrays of its lists, its maps and the storage of its unknown fields) and new memory, also when it returns an error; the input buffer and everything else the program holds stay as they are, and nothing at all is changed when the argument is not a pointer to a struct.", "quantifier": "all message types, inputs (well formed or not), target messages and memories (also with sharing and cycles)", "why_tests_cant": "a wrong write through unsafe pointers hits memory that no test looks at", "anchors": ["internal/prutal/decoder.go:90-308", "internal/prutal/decoder.go:532-571", "internal/desc/type.go:171-309"]}
{"id": "C70", "title": "The result depends only on contents", "statement": "What Unmarshal makes of a message, and whether it fails, depends only on the content of the message and on the bytes of the input, not on addresses, capacities, or memory that is not part of the message (such as elements beyond the length of a list).", "quantifier": "all message types, inputs, messages and layouts of them in memory", "why_tests_cant": "layouts of memory depend on the history of the program (reused messages, truncated lists); tests decode into new messages", "anchors": ["internal/prutal/decoder.go:90-308", "internal/prutal/decoder.go:561-571"]}
{"id": "C71", "title": "Values taken from a message stay what they are", "statement": "Strings, byte slices and submessages which the program took from a message, and a copy of the message struct, keep their content when the message is decoded into again.", "quantifier": "all message types, inputs, messages, and values held by the program", "why_tests_cant": "the effect is on values that the test has to have kept from before, for all ways in which memory could be reused", "anchors": ["internal/prutal/decoder.go:53-88", "internal/prutal/decoder.go:248-268", "internal/prutal/decoder.go:561-579"]}
{"id": "C72", "title": "Import paths mean what they mean to protoc, whatever their spelling", "statement": "An import path means the file in the first include directory that has it, in the order given (well-known files need not be there); different spellings that lead to the same place mean the same file. Loading a file loads it and every file it needs, directly or not, exactly once, the requested file first and every file before those it imports; it fails exactly when an import path means no file, a file cannot be read or has no Go package, or files import each other in a cycle. The Go package given by the user for a file applies wherever the file is imported.", "quantifier": "all file systems, working directories, include directories, embedded files, import graphs and spellings of paths (with ., .., repeated slashes, relative or absolute)", "why_tests_cant": "lookups combine arbitrary path strings with arbitrary directory contents; duplicates and wrong precedence only show for particular combinations", "anchors": ["prutalgen/pkg/prutalgen/prutalgen.go:52-105", "prutalgen/pkg/prutalgen/prutalgen.go:161-264", "prutalgen/pkg/prutalgen/embed.go:56-60"]}
{"id": "C73", "title": "One run with several proto files is as good as several runs", "statement": "Running prutalgen with several proto files writes, for every argument, the code of the file named by it, in the place determined by its own name and Go package; it does not depend on the other arguments or their order, except that the run ends at the first argument that fails. With no include directory the working directory is used.", "quantifier": "all lists of arguments, options, include directories and file systems", "why_tests_cant": "state left over from an earlier argument only shows for particular pairs of files", "anchors": ["prutalgen/main.go:28-66", "prutalgen/pkg/prutalgen/prutalgen.go:93-113"]}
{"id": "C74", "title": "What LoadProto returns is determined by the texts, and is well formed", "statement": "Whenever loading a proto file succeeds, the returned files are exactly the files reachable through import statements, each once, the requested file first; each of them mirrors its own text (packages, imports with their public flag, messages, enums, fields, services, in the order of the text), its imports point to the files the import paths mean, every reachable file is well formed, and every used type is a declaration found by the scoping rules. Loading succeeds whenever all reachable files exist, parse, have a Go package and no import cycle, and declare what protobuf allows. Two sets of results for the same texts in the same order are equal.", "quantifier": "all sets of proto files, import graphs, include directories, M options and root files", "why_tests_cant": "the claim joins lookup, parsing, resolution and verification over arbitrary import graphs; tests use a handful of file sets and check parts of the tree", "anchors": ["prutalgen/pkg/prutalgen/prutalgen.go:93-105", "prutalgen/pkg/prutalgen/prutalgen.go:178-264", "prutalgen/pkg/prutalgen/proto.go:137-167"]}
{"id": "C75", "title": "From proto texts to bytes", "statement": "If prutalgen accepts a set of proto files, then the Go types it generates for them, used with Marshal and Unmarshal, produce and accept exactly the bytes that the protobuf encoding prescribes for the messages described by the texts of these files.", "quantifier": "all accepted sets of proto files within the supported part of the language, all messages, all values, all inputs", "why_tests_cant": "it spans both halves of the project: the generator and the codec are tested apart, and each only on a few schemas", "anchors": ["prutalgen/pkg/prutalgen/prutalgen.go:93-105", "prutalgen/pkg/prutalgen/code.go:80-291", "prutal.go:29-87", "internal/prutal/encoder.go", "internal/prutal/decoder.go"]}
{"id": "C76", "title": "Generated files are Go source files", "statement": "The file that prutalgen generates for a proto file, read by the lexical rules of Go (with automatic semicolons), is a Go source file with exactly the intended declarations: the types, constants, tables, methods and getters for the enums and messages of the proto file, with their tags, and nothing else. Comments copied from the proto file never change that. Every package whose name is used is imported exactly once, and no others.", "quantifier": "all accepted sets of proto files, all comments in them, all options of the generator, all command lines", "why_tests_cant": "tests compare the generated text for a few files; whether names, tags, comments and line breaks combine into readable Go code for all files is a statement about an unbounded set of texts", "anchors": ["prutalgen/pkg/prutalgen/code.go:80-382", "prutalgen/pkg/prutalgen/codewriter.go:60-170", "prutalgen/pkg/prutalgen/field.go:132-240", "prutalgen/pkg/prutalgen/comment.go:38-122"]}
{"id": "C77", "title": "The characters of a proto file determine its tokens", "statement": "A proto file written as any sequence of lexical elements of the protobuf language (identifiers, integers, floating-point numbers, strings, symbols, white space, line and block comments), such that no element runs into the next, is read as exactly that sequence: white space and comments separate tokens but never change them, and quotes, comment marks and escapes inside strings or comments are not taken for something else. No text has two such readings. For every text, whatever is read is a lexical element of the text, in the order of the text.", "quantifier": "all texts, of any length and any layout", "why_tests_cant": "tests feed a few files with conventional layout; how comment marks, quotes, escapes, dots, signs and exponents combine is an unbounded set of texts", "anchors": ["prutalgen/internal/Protobuf.g4:315-622", "prutalgen/internal/parser/protobuf_lexer.go", "prutalgen/internal/antlr/lexer.go:166-235", "prutalgen/internal/antlr/lexer_atn_simulator.go:141-307"]}
{"id": "C78", "title": "A proto file is read as what was written", "statement": "The files that LoadProto does not refuse with a syntax error are exactly those of the protobuf language. What is read corresponds to the text token by token: each option, field, enum value, range, method, import and nested declaration is read with its own name, number, type, label and options, at its place, and nothing is skipped, duplicated or attached to something else. No file has two readings, and white space and comments have no influence on what is read.", "quantifier": "all texts, with any number and any nesting of declarations", "why_tests_cant": "tests parse a handful of files; keywords used as names, optional parts and nesting combine without bound, and where two rules compete only a proof excludes that the wrong one wins", "anchors": ["prutalgen/internal/Protobuf.g4:10-304", "prutalgen/internal/Protobuf.g4:624", "prutalgen/internal/parser/protobuf_parser.go", "prutalgen/pkg/prutalgen/prutalgen.go:236-264"]}
{"id": "C79", "title": "What is generated from is what is written in the characters of the files", "statement": "The names, types, labels, numbers, values of options, imports and editions that the generator works with are those written in the text of the proto file, at their places and in their order. A directive (a line //prutalgen:... in a comment) takes effect on the declaration that its comment stands directly above or beside the end of, on the first such declaration if there are several, and on no other; comments above the first token of the file that belong to no declaration apply to the file. Formatting a file, or adding, removing and changing comments without directives, does not change what is generated. From the characters of the files on, generated code encodes and decodes the messages that the files declare.", "quantifier": "all texts of files, any layout and comments, any nesting of declarations", "why_tests_cant": "tests load a few files with usual layout; where comments stand relative to nested declarations, and how texts, tokens, literals and directives combine, is an unbounded set", "anchors": ["prutalgen/pkg/prutalgen/prutalgen.go:236-264", "prutalgen/pkg/prutalgen/comment.go:26-122", "prutalgen/pkg/prutalgen/directive.go:36-98", "prutalgen/pkg/prutalgen/field.go:290-367", "prutalgen/pkg/prutalgen/message.go:226-248", "prutalgen/pkg/prutalgen/enum.go:154-210", "prutalgen/pkg/prutalgen/service.go:75-121", "prutalgen/pkg/prutalgen/utils.go:43-48"]}
{"id": "C80", "title": "Directives and options select what they are documented to select", "statement": "The constants of an enum carry the prefix of their type unless `no_enum_prefix` is written at the value, the enum or the file, or else the last setting of the gogoproto option of the enum, or else of the file, says so; enums have name tables unless `no_enum_mapping` is written at the enum or the file; a struct has a place for unknown fields exactly if the first of `unknown_fields`/`no_unknown_fields` at the message, or else at the file, or else the gogoproto option of the message, or else of the file, asks for it; and fields hold pointers to messages unless `no_pointer` is written at the field or the message, or the last setting of `(gogoproto.nullable)` is false. A declaration is not affected by what is written elsewhere.", "quantifier": "all files, messages, enums, fields and values, with any directives and options in any order and number", "why_tests_cant": "each switch has four or five places with a precedence among them, and the combinations with everything else in a file are unbounded", "anchors": ["prutalgen/pkg/prutalgen/enum.go:genNoPrefix,genMapping,resolve", "prutalgen/pkg/prutalgen/message.go:genUnknownFields", "prutalgen/pkg/prutalgen/field.go:genNoPointer,GoTypeName,IsPointer", "prutalgen/pkg/prutalgen/directive.go:Has,IsSet", "prutalgen/pkg/prutalgen/code.go:EnumGen,MessageGen"]}
{"id": "C81", "title": "Generated types are accepted by the Go compiler", "statement": "The struct and enum types generated for accepted proto files are legal Go types, however messages refer to themselves and to each other: names differ (C54), used types are declared (C60), and no struct contains itself.", "quantifier": "all files with any references among messages, and any directives", "why_tests_cant": "reference graphs of any size with any mixture of switches", "anchors": ["prutalgen/pkg/prutalgen/field.go:genNoPointer,GoTypeName,IsPointer", "prutalgen/pkg/prutalgen/code.go:MessageGen"]}
{"id": "C82", "title": "The table-driven lexer reads exactly the tokens of the grammar, whatever was read before", "statement": "The lexer that is run - the automaton unpacked from the table of numbers in the generated lexer, interpreted on the fly with a cache of states that all files of a process share - gives for every file the lexical elements of the grammar as they are written, each with the type and the channel of its rule (keyword before identifier, longest match, comments and white space off the parser's channel). The files read before make no difference, and the cache stays bounded.", "quantifier": "all sequences of files, all their characters, every state the shared cache can be in", "why_tests_cant": "the table has 2400 numbers and the cache depends on the whole history of the process; states are told apart only by 32-bit hashes, and tests see a few files with a fresh cache", "anchors": ["prutalgen/internal/parser/protobuf_lexer.go:serializedATN", "prutalgen/internal/antlr/atn_deserializer.go:Deserialize", "prutalgen/internal/antlr/lexer_atn_simulator.go:Match,execATN,closure,getReachableConfigSet,addDFAState", "prutalgen/internal/antlr/lexer.go:NextToken", "prutalgen/internal/antlr/atn_config.go:LEquals"]}
{"id": "C83", "title": "The generated parser accepts exactly the files of the grammar and builds their tree", "statement": "The parser that is run - generated functions that look at the next token, compare it with sets of expected tokens and ask a predictor where the next token does not settle it - reports no error exactly when the tokens are a file of the proto grammar, and then hands the listeners the tree of that file. No prediction, right or wrong, makes it accept a file outside the grammar or misread a token. Running it on the tokens of the shared lexer gives what is written in the text.", "quantifier": "all sequences of tokens, all texts after any files read before, any predictor (for acceptance: any that names an alternative which can go on; for the tree: the first such)", "why_tests_cant": "53 mutually recursive functions with lookahead sets computed from a table; nesting and length of files are unbounded", "anchors": ["prutalgen/internal/parser/protobuf_parser.go:Proto,Field,MessageElement,Constant", "prutalgen/internal/antlr/error_strategy.go:Sync,RecoverInline", "prutalgen/internal/antlr/ll1_analyzer.go:look1", "prutalgen/internal/antlr/parser.go:Match,EnterRule,ExitRule", "prutalgen/internal/antlr/common_token_stream.go:LT,Consume"]}
{"id": "C84", "title": "The parser's predictions are right, whatever was parsed before", "statement": "Where the next token does not settle which alternative of the grammar to take, the parser simulates its tables on the tokens that follow and keeps what it learns for all later files. Whatever was predicted before, in whatever files and order and in front of whatever errors, the alternative it takes is the first one with which the rest of the file can be read, if there is one; what it takes never depends on what it has learnt. So the parser with these predictions accepts exactly the files of the grammar and builds their tree, file after file.", "quantifier": "all sequences of tokens, all places the parser reaches at any depth of nesting, all histories of earlier predictions for any tokens, all bounds on steps from 10000", "why_tests_cant": "the learnt automata are shared by all files of a process and grow with what was read; contexts of unbounded depth are merged into graphs; a wrong merge or a wrong edge shows only after some other file", "anchors": ["prutalgen/internal/antlr/parser_atn_simulator.go:AdaptivePredict,execATN,execATNWithFullContext,computeReachSet,closureWork", "prutalgen/internal/antlr/prediction_context.go:merge,mergeArrays", "prutalgen/internal/antlr/prediction_mode.go:hasSLLConflictTerminatingPrediction,getSingleViableAlt", "prutalgen/internal/antlr/atn_config_set.go:Add", "prutalgen/internal/antlr/dfa_state.go:Equals", "prutalgen/internal/parser/protobuf_parser.go:decisionToDFA"]}
{"id": "C85", "title": "Reading a file terminates, and from its bytes on depends on nothing but the file", "statement": "Whatever bytes a file holds, reading it comes to an end: the depth of recursion of the parser is at most 30 for each byte, whatever is predicted. What is read (or that there is a syntax error) is a function of the text: it does not depend on which files were read before by the same process, in which order or how often, though the lexer and the parser keep and use what they have learnt from them. Characters written in UTF-8 are read as written. So what is generated for the files of a run depends on nothing but these files.", "quantifier": "all byte sequences, all sequences of files, all states of the shared caches that earlier files can leave, all predictors for the bound", "why_tests_cant": "termination for all inputs and independence of all histories cannot be seen on samples; the recursion and the loops of 53 rule functions must each consume a token", "anchors": ["prutalgen/pkg/prutalgen/prutalgen.go:parseInput", "prutalgen/internal/antlr/input_stream.go:NewIoStream", "prutalgen/internal/parser/protobuf_parser.go", "prutalgen/internal/parser/protobuf_lexer.go", "prutalgen/pkg/prutalgen/comment.go:filterCommentOrWhitespace"]}
{"id": "C86", "title": "Input that has not arrived completely is told apart from input that is wrong", "statement": "If Unmarshal fails on some bytes with an error other than io.ErrUnexpectedEOF, it fails with that same error whatever bytes follow. A prefix of an input that is accepted is either accepted or fails with io.ErrUnexpectedEOF; it is accepted exactly if it ends between two records of the top level message. It fails with io.ErrUnexpectedEOF only if the input, or a message, map entry or packed block inside it, ends in the middle of a record or element. So a caller that collects a message piece by piece may give up at the first other error, and never gives up on a message whose rest would have made it valid.", "quantifier": "all struct types (for the second part: those that implement a schema), all arguments and contents of the target, all inputs and all continuations", "why_tests_cant": "it relates the outcomes on an input and on every one of its infinitely many extensions, through all wire types, nested messages, groups and maps", "anchors": ["prutal.go:Unmarshal", "internal/prutal/prutal.go:Unmarshal", "internal/prutal/decoder.go:DecodeStruct", "internal/protowire/wire.go:ParseError", "internal/protowire/wire.go:ConsumeFieldValue"]}
{"id": "C87", "title": "A small input cannot make Unmarshal use much memory", "statement": "Unmarshal of n bytes makes the message hold at most 2n units more than before, where a unit is a byte of a string or []byte, an element of a list, an entry of a map, or a variable behind a pointer or in a oneof. It makes at most 4n allocations, also if it fails. In particular lengths that are announced and do not follow, however large and however deeply nested, cost nothing.", "quantifier": "all message types, all contents and sharing of the target, all inputs, valid or not (the bound on allocations: also all types and arguments that are refused)", "why_tests_cant": "it bounds the memory for every input, in particular for the worst one an attacker can find; tests measure chosen inputs", "anchors": ["prutal.go:Unmarshal", "internal/prutal/decoder.go:DecodeStruct", "internal/prutal/decoder.go:DecodeMapPair", "internal/prutal/decoder.go:ReallocSlice", "internal/prutal/decoder.go:mallocIfPointer", "internal/prutal/decoder.go:appendToUnknownFields"]}
{"id": "C88", "title": "Concurrent calls of Unmarshal on different messages do not disturb each other", "statement": "When several goroutines call Unmarshal at the same time, each on a message of its own, then in every interleaving of their steps each call returns the error, or leaves the message, that it would have computed alone; each call returns; there is no data race; and memory that belongs to none of the messages is never changed. The calls may share inputs, strings, []byte values and submessages that the messages refer to.", "quantifier": "all message types, all numbers of goroutines, all messages and inputs in memory (trees whose spare capacity is zero, as in C70), all schedules", "why_tests_cant": "the number of interleavings is exponential in the number of steps; a test, also with the race detector, sees a few of them", "anchors": ["prutal.go:Unmarshal", "internal/prutal/decoder.go:DecodeStruct", "internal/prutal/decoder.go:DecodeMapPair", "internal/prutal/decoder.go:ReallocSlice", "internal/prutal/decoder.go:mallocIfPointer", "internal/prutal/decoder.go:resetUnknownFields", "internal/prutal/decoder.go:appendToUnknownFields"]}
{"id": "C89", "title": "Marshal and MarshalAppend only read the message, and write only to the buffer and to new memory", "statement": "For a message in memory whose parts may be shared (the same submessage, list, string or []byte may be referred to any number of times), Marshal and MarshalAppend return the bytes of the message the memory shows. Step by step they read only the message, the given buffer and memory they allocated, and write only the given buffer beyond its length and memory they allocated; so the message and everything else is unchanged, also if the call fails, and the bytes that were in the buffer stay. The result is in the memory of the buffer if its capacity suffices, else (and always for Marshal) in new memory. This holds for every order in which maps are iterated over; the order changes neither the number of bytes nor the message they say.", "quantifier": "all message types, all memories with messages that share parts, all buffers that are not part of the message, all capacities, all orders of iteration", "why_tests_cant": "aliasing and capacity combinations are unbounded, and a write to memory that the test does not look at goes unnoticed", "anchors": ["prutal.go:MarshalAppend", "internal/prutal/encoder.go:AppendStruct", "internal/prutal/encoder.go:AppendMapField", "internal/prutal/encoder.go:AppendListField", "internal/prutal/encoder.go:appendUnknownFields", "internal/wire/encoder.go:LenPack"]}
{"id": "C90", "title": "Size only reads the message, and agrees with Marshal whatever the order of maps", "statement": "For a message in memory whose parts may be shared, Size returns the size of the message the memory shows and changes nothing. Step by step it writes no memory, and reads only the message; the bytes of strings and []byte values are not read at all, only their lengths. The number is the number of bytes that Marshal returns for the same message, also if the two calls iterate over maps in different orders.", "quantifier": "all message types, all memories with messages that share parts, all orders of iteration of either call", "why_tests_cant": "a stray write or an order-dependent size shows only on particular memory layouts and iteration orders, which a test cannot enumerate", "anchors": ["prutal.go:Size", "internal/prutal/sizer.go:SizeStruct", "internal/prutal/sizer.go:SizeListField", "internal/prutal/sizer.go:SizeMapField", "internal/prutal/sizer.go:sizeUnknownFields"]}
{"id": "C91", "title": "Marshal, MarshalAppend, Size and Unmarshal calls in several goroutines do not disturb each other", "statement": "Any number of goroutines may call Marshal, MarshalAppend and Size on the same message, and Unmarshal into other messages, at the same time, if no call writes memory that another one reads or writes (MarshalAppend writes its buffer, Unmarshal the message and the memory that belongs to it, all calls the variable for the result and memory they allocated). In every interleaving of their memory accesses each call returns what it would return alone, each returns after a fixed number of its own steps, there is no data race, and the messages that are encoded are never changed.", "quantifier": "all message types, all numbers of goroutines, all interleavings, all memories with shared parts", "why_tests_cant": "interleavings are unbounded; a race detector only sees the schedules that happen", "anchors": ["prutal.go:Marshal", "prutal.go:MarshalAppend", "prutal.go:Size", "prutal.go:Unmarshal", "internal/prutal/encoder.go:AppendStruct", "internal/prutal/sizer.go:SizeStruct"]}
{"id": "C92", "title": "What Unmarshal leaves in the message when it fails", "statement": "If Unmarshal fails, the message holds what Unmarshal would have made of the longest prefix of the input it accepts, except for the field of the record at which that prefix ends: there a plain scalar keeps its value, a list keeps its elements and may have one more, a map keeps exactly its entries (a nil map may have become an empty one), an optional field or oneof member may have been replaced by a new one, and a nested message is left in the same way. The message is still a valid message of its type that Marshal, Size and Unmarshal accept. It never shows memory that nothing has written.", "quantifier": "all message types, all messages, all inputs that Unmarshal rejects, all contents of uninitialised memory", "why_tests_cant": "every input can go wrong at every byte; uninitialised memory is usually zero in tests", "anchors": ["prutal.go:Unmarshal", "internal/prutal/decoder.go:DecodeStruct", "internal/prutal/decoder.go:mallocIfPointer", "internal/prutal/decoder.go:ReallocSlice", "internal/prutal/decoder.go:DecodeMapPair", "internal/prutal/span.go:Malloc"]}
{"id": "C93", "title": "Temporary variables that are reused between calls are not observable", "statement": "The result of an Unmarshal call, message or error, does not depend on which calls were made before or are made at the same time in other goroutines, on which types and inputs, and whether they failed: nothing that was decoded for another entry, field, message or call appears in a map entry. Nor does a call change what another call is decoding.", "quantifier": "all message types with protobuf maps, all inputs and messages, all sequences of calls, all contents of the pools and all choices sync.Pool can make", "why_tests_cant": "which of the pooled variables a call gets, and what is left in it, depends on scheduling, garbage collection and everything decoded before", "anchors": ["prutal.go:Unmarshal", "internal/desc/type.go:TmpMapVars", "internal/desc/type.go:newTmpMapVarsFunc", "internal/prutal/decoder.go:DecodeMapPair", "internal/prutal/decoder.go:DecodeStruct"]}
{"id": "C94", "title": "The generated text, read and compiled by the rules of Go, has the Go types the runtime is given", "statement": "If the generator accepts proto files, the names and types in them are what the generated text needs. Go reads the generated files as exactly one program. The struct types this program declares, with the fields, types, struct tags, oneof wrappers and XXX_OneofWrappers methods that its own text gives them (identifiers resolved through the imports of the file they stand in), are the struct types whose encoding C56, C57, C75 and C79 describe. The program compiles exactly if its type names differ and no struct contains itself by value. So the messages of a program compiled from the characters of the generated files are encoded and decoded as the proto files, given as characters, prescribe.", "quantifier": "all sets of proto files (outside the cases of C58, C60 and C76), all generator options, comments and arguments, all inputs and messages", "why_tests_cant": "it relates the text of every generated program, through the scoping and typing rules of Go, to the encoding of all its messages; a golden file shows one text and never what the compiler makes of it", "anchors": ["prutalgen/pkg/prutalgen/code.go", "prutalgen/pkg/prutalgen/message.go", "prutalgen/pkg/prutalgen/type.go", "internal/desc/desc.go:parseStruct"]}
{"id": "C95", "title": "Every case of a oneof that the Go type describes is known to the library", "statement": "A Go struct type describes the cases of its oneofs by its methods: ProtoReflect, whose result holds the list of wrapper types at most four struct fields deep, or XXX_OneofWrappers, which returns it. When such a type is accepted, exactly the described wrapper types that fit a oneof of the struct become members of it, so Marshal writes them and Unmarshal makes them. A case that is set is never silently dropped because its description was not found.", "quantifier": "all values the methods can return, all struct types and wrapper types", "why_tests_cant": "the search goes through arbitrary values by reflection; tests look at the values of one version of one generator", "anchors": ["internal/desc/utils.go:searchOneofWrappers,searchFieldOneofWrappers", "internal/desc/desc.go:parseStruct"]}
{"id": "C96", "title": "A program built with an older version of the message definitions reads what it knows", "statement": "Let the fields known to one program be some of the fields known to another, with the same numbers and types, in all message types, whatever the Go structs look like otherwise. Every input Unmarshal accepts in the second program it accepts in the first, and there every known field gets the same content, in nested messages, lists and maps as well; the records of the other fields are in the storage of unknown fields, in order. Of a oneof whose case set last is unknown to the first program nothing is said.", "quantifier": "all pairs of schemas, all Go types implementing them, all inputs, all targets that agree in the known fields", "why_tests_cant": "a test has one pair of versions and some messages; the claim is about every pair and every input, including unusual orders, repeated and nested records", "anchors": ["prutal.go:Unmarshal", "internal/prutal/decoder.go:DecodeStruct,appendToUnknownFields"]}
{"id": "C97", "title": "Messages pass unharmed through a program built with an older version of the definitions", "statement": "Let a program know some of the fields another one knows, and let its structs have storage for unknown fields. For every input the newer program accepts, the older program accepts it as well, and if it marshals what it has read, in whatever order Go lists the entries of its maps, then the newer program reads from that output the same message as from the original input: all fields at all levels, including those the older program does not know, and including what neither knows. Conditions: messages are held by pointer in fields, a oneof has no cases that only the newer program knows, and no oneof in the message is set to a default value (such oneofs are lost, see C26; the rest of the message is unharmed).", "quantifier": "all pairs of schemas of that kind, all Go types implementing them, all accepted inputs, all orders of map entries", "why_tests_cant": "a test passes a few messages of one pair of versions through; the claim is about arbitrary input, with fields repeated, out of order and nested to any depth, for every pair", "anchors": ["prutal.go:Unmarshal,MarshalAppend", "internal/prutal/decoder.go:DecodeStruct,appendToUnknownFields,resetUnknownFields", "internal/prutal/encoder.go:AppendStruct,appendUnknownFields"]}
{"id": "C98", "title": "A program built with a newer version of the definitions reads what an older one writes", "statement": "Let a program know some of the fields another one knows. Whatever message the older program marshals (without unknown fields in it, nested at most as deep as Unmarshal allows, the entries of maps listed in any order), the newer program's Unmarshal accepts, and gets a message with the same content in the known fields, in nested messages, lists and maps too, in which all fields the older program does not know are unset at every level and no unknown fields are stored. Conditions: messages are held by pointer in fields, a oneof has no cases that only the newer program knows, and no oneof is set to a default value (such oneofs are lost, see C26; the rest is as said).", "quantifier": "all pairs of schemas of that kind, all Go types implementing them, all messages of the older program, all orders of map entries", "why_tests_cant": "a test has one pair of versions and a few messages; the claim is about every pair and every message, at any nesting, with nil pointers in lists and maps and nil cases of oneofs", "anchors": ["prutal.go:MarshalAppend,Unmarshal", "internal/prutal/encoder.go:AppendStruct", "internal/prutal/decoder.go:DecodeStruct"]}
{"id": "C99", "title": "Types of fields can be changed to compatible ones", "statement": "Let two programs have the same message types, with the same field numbers, except that types of fields differ: where one has int32, uint32, int64 or uint64 the other has another of these, or one has sint32 and the other sint64, fixed32 and sfixed32, fixed64 and sfixed64, string and bytes (also as the values of maps); or a field is single in one and optional or repeated in the other; or a single field of the first has become the only member of a oneof in the second. (a) Whatever the first program marshals, a second one whose types can hold the values (bool counts as 0 or 1, signed numbers as numbers modulo 2^64 when read as unsigned) unmarshals to the same content, with a single value as the only element of a list; and the two programs marshal the same bytes for messages with the same content. (b) Whatever input one of the programs accepts, the other accepts too, and gets the same content, in nested messages, lists and maps too: numbers are equal modulo 2^32 if one of the types has 32 bits, and of a list that is read as a single value (not packed) the last element counts; messages that keep unknown fields in both programs keep the same ones. As in protobuf, this should include reading numbers as bool, where everything but 0 is true.", "quantifier": "all pairs of schemas of that kind, all Go types implementing them, (a) all messages, (b) all byte strings and all messages to be overwritten", "why_tests_cant": "tests never have two versions of a type; the claim is about every pair of versions, every number (negative numbers take ten bytes whatever their type) and every nesting", "anchors": ["prutal.go:MarshalAppend,Unmarshal", "internal/prutal/encoder.go:AppendStruct", "internal/prutal/decoder.go:DecodeStruct"]}
{"id": "C100", "title": "Equal bytes mean equal messages", "statement": "Two messages for which Marshal gives the same bytes are the same message: they agree in all fields, in nested messages, lists and maps, and in their unknown fields. Conversely, for the same message Marshal gives the same number of bytes, and the same bytes if no map has two entries; nil and empty slices, maps and bytes, nil pointers in lists of messages, and Go struct fields that are no part of the message make no difference. So bytes (or their hashes) can be compared instead of messages.", "quantifier": "all schemas, all Go types implementing them, all pairs of messages", "why_tests_cant": "injectivity is about all pairs of messages: that no two different ones, of any size and nesting, collide", "anchors": ["prutal.go:MarshalAppend", "internal/prutal/encoder.go:AppendStruct"]}
{"id": "C101", "title": "Messages can be kept as bytes and unmarshaled later", "statement": "Let a second program have the same message types as a first one, but with []byte instead of pointers to messages in some fields, and [][]byte instead of lists of them. Whatever input the first program accepts, the second accepts too; what it has in such a field after reading are bytes from which the first program unmarshals exactly the message it has itself in that field (nil where it has nil), and for lists the same number of elements, each with that relation to the message at the same place. Conversely, a message of the second program that holds in such fields (and in maps) what the first program marshals for the messages has the same bytes as the message of the first program that holds the messages themselves. So decoding of a part can be put off, parts can be passed on without being decoded, and parts that are marshaled already can be put together.", "quantifier": "all pairs of schemas of that kind, all Go types implementing them, all byte strings, all messages", "why_tests_cant": "tests never have two versions of a type; the claim is about every input, with records of the field repeated and in any order, and every nesting", "anchors": ["prutal.go:MarshalAppend,Unmarshal", "internal/prutal/decoder.go:DecodeStruct", "internal/prutal/encoder.go:AppendStruct"]}
{"id": "C102", "title": "The order of Go fields does not matter", "statement": "Let two programs have Go struct types for the same messages that differ in the order of their fields, in fields without protobuf tags, or in the wrapper types of oneofs (or whether a field is in a oneof at all). For messages with the same content in all tagged fields, in nested messages, lists and maps too, and the same unknown fields, Marshal gives the same bytes (or the same error) and Size the same number; what one program marshals the other unmarshals to that content; and if the oneofs have the same members, the two programs accept exactly the same inputs and read the same content and the same unknown fields from them, so that writing the message again gives the same bytes in both.", "quantifier": "all pairs of schemas of that kind, all Go types implementing them, all pairs of messages with the same content, all byte strings", "why_tests_cant": "the claim is about every order of the fields of every type, and every nesting", "anchors": ["prutal.go:MarshalAppend,Size,Unmarshal", "internal/prutal/encoder.go:AppendStruct", "internal/desc/desc.go:parseStruct"]}
