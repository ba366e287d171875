{"id": "C01", "title": "Secret sharing and recovery are inverse", "statement": "For any policy built from AND gates with at most two inputs and OR gates, any secret, any random coefficients and any attribute list that satisfies the policy, shareSecret followed by recoverCoefficients (on a fresh policy) succeeds, and the sum of coefficient*share over matching labels (LSSStestSecretRecovery) is exactly the shared secret, provided no two leaves of the policy are given the same share label.", "quantifier": "all policy trees (any depth), all attribute lists, all secrets and all random coefficients in the field, every permitted result of std::sort", "why_tests_cant": "policies and attribute subsets are unbounded, and the recovered value depends on random field elements; a test samples a handful", "anchors": ["src/lsss/zlsss.cpp: OpenABELSSS::shareSecret, recoverCoefficients, iterativeShareSecret, iterativeCoefficientRecover, calculateCoefficient, LSSStestSecretRecovery"]}
{"id": "C02", "title": "Coefficient recovery succeeds exactly for satisfying attribute lists", "statement": "On a freshly parsed policy, recoverCoefficients returns true if and only if the attribute list satisfies the policy read as a monotone boolean formula (leaf = attribute present, and = all, or = some); when it returns false no rows are left in the result.", "quantifier": "all AND/OR policy trees and all attribute lists", "why_tests_cant": "the number of policies and attribute subsets is unbounded", "anchors": ["src/lsss/zlsss.cpp: OpenABELSSS::recoverCoefficients, iterativeScanTree, determineIfNodeShouldBeMarked"]}
{"id": "C03", "title": "checkIfSatisfied decides the boolean formula", "statement": "checkIfSatisfied returns (true, n) exactly when the attribute list satisfies the policy as a boolean formula, for a policy whose flags are clear; otherwise it returns (false, 0).", "quantifier": "all AND/OR policy trees and attribute lists, every permitted result of std::sort", "why_tests_cant": "unbounded policies and attribute subsets", "anchors": ["src/lsss/zlsss.cpp: checkIfSatisfied, iterativeScanTree, determineIfNodeShouldBeMarked"]}
{"id": "C04", "title": "checkIfSatisfied leaves no trace", "statement": "After checkIfSatisfied with its default reset, the policy behaves as a fresh one: any sequence of checkIfSatisfied calls with arbitrary attribute lists, followed by recoverCoefficients, gives the same answers as on a freshly parsed policy.", "quantifier": "all policy trees, all finite histories of calls with arbitrary attribute lists", "why_tests_cant": "history dependence can hide behind any sequence of earlier calls", "anchors": ["src/lsss/zlsss.cpp: checkIfSatisfied", "src/lsss/zpolicy.cpp: resetFlags"]}
{"id": "C05", "title": "recoverCoefficients depends only on its arguments", "statement": "Calling recoverCoefficients a second time on the same policy object with another attribute list gives the same answer as on a freshly parsed copy of that policy.", "quantifier": "all policies and all pairs (histories) of attribute lists", "why_tests_cant": "depends on the history of earlier calls on the same object", "anchors": ["src/lsss/zlsss.cpp: OpenABELSSS::recoverCoefficients, performCoefficientRecovery, iterativeScanTree", "src/lsss/zpolicy.cpp: resetFlags"]}
{"id": "C06", "title": "Unsatisfying share sets reveal nothing about the secret", "statement": "For any policy and any attribute list that does not satisfy it, the joint distribution of the shares attached to those attributes is the same for every secret: the number of random coefficient choices that produce any given view does not depend on the secret.", "quantifier": "all policy trees including k-of-n gates (with fewer children than the field characteristic), all unsatisfying attribute lists, all pairs of secrets, all views", "why_tests_cant": "a statement about a probability distribution over all random choices", "anchors": ["src/lsss/zlsss.cpp: OpenABELSSS::shareSecret, iterativeShareSecret, evaluatePolynomial"]}
{"id": "C07", "title": "Every leaf keeps its own share", "statement": "After shareSecret on a parsed policy the result has one row per leaf of the policy: no share is overwritten by another.", "quantifier": "all policy strings accepted by the parser", "why_tests_cant": "needs uniqueness of generated labels over all attribute names", "anchors": ["src/lsss/zlsss.cpp: OpenABELSSS::addShareToResults, makeUniqueLabel", "src/lsss/zdriver.cpp: Driver::leaf_node, check_attribute"]}
{"id": "C08", "title": "Reusing a secret-sharing object is safe", "statement": "shareSecret and recoverCoefficients on a reused OpenABELSSS object give the same rows as on a new object.", "quantifier": "all histories of earlier share/recover calls on the object", "why_tests_cant": "depends on the history of policies processed before", "anchors": ["src/lsss/zlsss.cpp: OpenABELSSS::performSecretSharing, performCoefficientRecovery, makeUniqueLabel"]}
{"id": "C09", "title": "Recovery works for AND gates of every width", "statement": "If every input of an n-input AND gate is satisfied, the recovered coefficients combine the shares to the secret.", "quantifier": "all n and all secrets and random coefficients", "why_tests_cant": "unbounded n; the library parser only builds n = 2, the tree API any n", "anchors": ["src/lsss/zlsss.cpp: OpenABELSSS::calculateCoefficient, iterativeCoefficientRecover"]}
{"id": "C10", "title": "Access is monotone in attributes", "statement": "If an attribute list satisfies a policy then so does every attribute list that contains it, and recovery of the secret still succeeds.", "quantifier": "all policies, all pairs of attribute lists A subset of B", "why_tests_cant": "quantifies over all pairs of lists and all policies", "anchors": ["src/lsss/zlsss.cpp: recoverCoefficients, checkIfSatisfied"]}
{"id": "C11", "title": "Recovery only uses attributes the caller holds", "statement": "Every row returned by a successful recoverCoefficients carries the label of an attribute in the supplied attribute list and of a leaf of the policy.", "quantifier": "all policies and attribute lists", "why_tests_cant": "universal over policies and lists; a violation would make decryption ask for a key component that does not exist", "anchors": ["src/lsss/zlsss.cpp: iterativeCoefficientRecover, addShareToResults"]}
{"id": "C12", "title": "Copying a policy preserves its meaning", "statement": "A policy obtained by copy construction or assignment shares secrets under the same labels and is satisfied by the same attribute lists as the original.", "quantifier": "all policies", "why_tests_cant": "must hold for every tree, and reading an uninitialised member can look right in any particular test run", "anchors": ["src/lsss/zpolicy.cpp: OpenABEPolicy(const OpenABEPolicy&), operator=, OpenABETreeNode(OpenABETreeNode*)"]}
{"id": "C13", "title": "The policy parser implements the documented grammar with and-over-or precedence", "statement": "A policy token sequence is accepted exactly when it is derivable from the grammar; the resulting formula has and binding tighter than or, both left associative, with parentheses overriding.", "quantifier": "all token sequences", "why_tests_cant": "unbounded token sequences; precedence and conflicts are encoded in generated tables", "anchors": ["src/lsss/zparser.tab.cc: Parser::parse, yypact_, yydefact_, yytable_, yycheck_", "include/lsss/zparser.yy"]}
{"id": "C14", "title": "A malformed policy never yields a policy object", "statement": "createPolicyTree returns null for every input whose token sequence is not in the grammar (in particular for the empty string and for trailing tokens after a complete policy).", "quantifier": "all byte strings", "why_tests_cant": "universal over all malformed inputs", "anchors": ["src/lsss/zpolicy.cpp: createPolicyTree", "src/lsss/zdriver.cpp: Driver::parse_string, error", "src/lsss/zparser.tab.cc: Parser::parse"]}
{"id": "C15", "title": "The whole policy string is honoured", "statement": "If createPolicyTree accepts a string, the resulting policy is determined by the whole string: no suffix is silently ignored.", "quantifier": "all byte strings, including NUL and bytes >= 0x80", "why_tests_cant": "requires looking at every byte value in every position", "anchors": ["src/lsss/zparser.tab.cc: Parser::yytranslate_", "src/lsss/zscanner.ll", "src/lsss/zpolicy.cpp: createPolicyTree"]}
{"id": "C16", "title": "Printing a policy and parsing it again preserves it", "statement": "For every accepted policy made of attribute leaves, parsing toString() of the policy succeeds and yields the same tree.", "quantifier": "all accepted policy strings without numeric comparisons", "why_tests_cant": "unbounded nesting and attribute names", "anchors": ["src/lsss/zpolicy.cpp: OpenABETreeNode::toString, createPolicyTree"]}
{"id": "C17", "title": "addToRootOfInput adds exactly one conjunct or disjunct", "statement": "addToRootOfInput(AND, a, P) is satisfied exactly when P is satisfied and a is present; with OR exactly when P is satisfied or a is present.", "quantifier": "all policy strings and attribute names", "why_tests_cant": "string level splicing must be right for every policy text", "anchors": ["src/lsss/zpolicy.cpp: addToRootOfInput"]}
{"id": "C18", "title": "Repeated attributes get distinct share labels", "statement": "If an attribute occurs several times in a policy, the occurrences receive pairwise different share labels.", "quantifier": "all policies and all numbers of repetitions", "why_tests_cant": "unbounded repetition counts", "anchors": ["src/lsss/zdriver.cpp: Driver::leaf_node", "src/lsss/zlsss.cpp: makeUniqueLabel"]}
{"id": "C19", "title": "x < N compiles to exactly the less-than relation", "statement": "The policy attr < N (N any accepted number, bit width b) is satisfied by the attribute assignment attr = v (same width) if and only if v < N.", "quantifier": "all N and v of every supported bit width", "why_tests_cant": "2^64 pairs for 32-bit values", "anchors": ["src/lsss/zdriver.cpp: Driver::lt_policy, cmp_policy, bit_marker_list, bit_marker, assign_stmt"]}
{"id": "C20", "title": "x > N compiles to exactly the greater-than relation", "statement": "The policy attr > N is satisfied by attr = v if and only if v > N.", "quantifier": "all N and v of every supported bit width", "why_tests_cant": "2^64 pairs for 32-bit values", "anchors": ["src/lsss/zdriver.cpp: Driver::gt_policy, cmp_policy, bit_marker_list, assign_stmt"]}
{"id": "C21", "title": "x <= N and x >= N compile to exactly those relations", "statement": "attr <= N is satisfied by attr = v iff v <= N, and attr >= N iff v >= N.", "quantifier": "all N and v of every supported bit width", "why_tests_cant": "2^64 pairs for 32-bit values, including both ends of the range", "anchors": ["src/lsss/zdriver.cpp: Driver::le_policy, ge_policy"]}
{"id": "C22", "title": "x == N compiles to equality", "statement": "attr == N is satisfied by attr = v iff v = N.", "quantifier": "all N and v of every supported bit width", "why_tests_cant": "2^64 pairs", "anchors": ["src/lsss/zdriver.cpp: Driver::eq_policy"]}
{"id": "C23", "title": "Range policies are intervals", "statement": "attr in (lo-hi) is satisfied by attr = v iff lo < v < hi; attr in {lo-hi} iff lo <= v <= hi.", "quantifier": "all lo, hi, v of every supported bit width", "why_tests_cant": "2^96 triples", "anchors": ["src/lsss/zdriver.cpp: Driver::range_policy, range_incl_policy"]}
{"id": "C24", "title": "Numbers of different declared widths never match", "statement": "A comparison declared with one bit width (#b) is never satisfied by an assignment declared with a different bit width.", "quantifier": "all names, values, comparison operators and pairs of different widths", "why_tests_cant": "unbounded names and values", "anchors": ["src/lsss/zdriver.cpp: Driver::bit_marker, assign_stmt"]}
{"id": "C25", "title": "Compiling a numeric comparison never hits undefined behaviour", "statement": "For every number the scanner can deliver and every comparison operator, compiling the comparison terminates without an out of range shift, division or allocation of a null gate.", "quantifier": "all 32-bit numbers, all operators, all supported widths", "why_tests_cant": "every 32-bit value for every operator; the failing values are isolated boundary points", "anchors": ["src/lsss/zdriver.cpp: Driver::bit_marker_list, cmp_policy, le_policy, ge_policy, range_policy"]}
{"id": "C26", "title": "Date comparisons agree with day order", "statement": "A date comparison in a policy is satisfied by a date attribute iff the days compare accordingly, for the same prefix.", "quantifier": "all valid dates after 1970-01-01, every mktime result, all prefixes", "why_tests_cant": "unbounded prefixes and dates; depends on mktime", "anchors": ["src/lsss/zdriver.cpp: Driver::validate_date, set_date_in_policy, set_date_in_attrlist, lt_date_in_policy"]}
{"id": "C27", "title": "An attribute list asserts one value per numeric attribute", "statement": "If an attribute list built from text satisfies attr == v for some v, then the text assigns exactly the value v to attr.", "quantifier": "all attribute list strings and all v", "why_tests_cant": "the bits of several assignments can combine to a value that was never given", "anchors": ["src/lsss/zdriver.cpp: Driver::attr_num, assign_stmt, concat_attr"]}
{"id": "C28", "title": "An attribute satisfies the policy consisting of itself", "statement": "For every attribute name accepted by both parsers, the attribute list \"|a\" satisfies the policy \"a\".", "quantifier": "all attribute names", "why_tests_cant": "names are arbitrary strings over the scanner alphabet, with colon prefixes", "anchors": ["src/lsss/zdriver.cpp: check_attribute, Driver::leaf_node, leaf_attr"]}
{"id": "C29", "title": "Attribute lists survive their compact string", "statement": "Parsing toCompactString() of an attribute list gives an attribute list with the same set of attributes.", "quantifier": "all attribute list strings accepted by the parser", "why_tests_cant": "unbounded lists of names and numeric assignments", "anchors": ["src/lsss/zattributelist.cpp: OpenABEAttributeList::toCompactString, createAttributeList"]}
{"id": "C30", "title": "Hex encoding round trips", "statement": "fromHex(toHex(b)) and fromHex(toLowerHex(b)) succeed and restore b for every byte string; fromHex rejects every odd-length string and every string with a non-hex character and then leaves the object unchanged.", "quantifier": "all byte strings / all character strings", "why_tests_cant": "unbounded inputs", "anchors": ["include/lsss/zbytestring.h: toHex, toLowerHex, fromHex"]}
{"id": "C31", "title": "Base64 encoding round trips", "statement": "Base64Decode(Base64Encode(b)) = b for every byte string.", "quantifier": "all byte strings of every length modulo 3", "why_tests_cant": "unbounded inputs", "anchors": ["src/lsss/hashattributes.cpp: Base64Encode, Base64Decode"]}
{"id": "C32", "title": "pack/unpack round trips inside any buffer", "statement": "For every prefix, payload shorter than 2^32 and suffix, unpack at the packed position returns the payload and advances the index to the suffix.", "quantifier": "all byte strings (prefix, payload, suffix)", "why_tests_cant": "unbounded inputs and positions", "anchors": ["include/lsss/zbytestring.h: pack, unpack, pack16bits, get16bits, pack32bits, get32bits"]}
{"id": "C33", "title": "smartPack/smartUnpack round trips", "statement": "For every byte string shorter than 2^32, smartUnpack of smartPack returns the byte string and the right position, at any position in a buffer.", "quantifier": "all byte strings including the empty one, all prefixes and suffixes", "why_tests_cant": "size classes meet at 0, 255/256 and 65535/65536; the empty string is a separate case", "anchors": ["include/lsss/zbytestring.h: smartPack, smartUnpack, unpack8bits, unpack16bits, unpack"]}
{"id": "C34", "title": "Byte string serialization round trips", "statement": "deserialize(serialize(b)) restores b into any target object; malformed input leaves the target unchanged.", "quantifier": "all byte strings shorter than 2^32 and all previous contents of the target", "why_tests_cant": "unbounded", "anchors": ["include/lsss/zbytestring.h: serialize, deserialize"]}
{"id": "C35", "title": "Masking is an involution", "statement": "x ^= m applied twice restores x, and the length never changes, for every mask of non-zero length.", "quantifier": "all byte strings x and masks m", "why_tests_cant": "unbounded", "anchors": ["include/lsss/zbytestring.h: operator^="]}
{"id": "C36", "title": "Constant-time comparison is equality", "statement": "The byte string comparison returns true iff both contents are equal.", "quantifier": "all pairs of byte strings", "why_tests_cant": "unbounded", "anchors": ["include/lsss/zbytestring.h: operator=="]}
{"id": "C37", "title": "Decoding hostile bytes never reads out of bounds", "statement": "unpack, smartUnpack, get16bits, get32bits and the ciphertext/key loaders either return bytes that are contiguous in the input or raise an exception, for every input.", "quantifier": "all byte strings and indices", "why_tests_cant": "hostile inputs are unbounded", "anchors": ["include/lsss/zbytestring.h: unpack, smartUnpack, unpack8bits, unpack16bits", "src/abe/zcontainer.cpp: OpenABEContainer::deserialize"]}
{"id": "C38", "title": "Appending a text string with + appends its bytes", "statement": "bytestring + string equals the concatenation of the bytes.", "quantifier": "all byte strings and strings", "why_tests_cant": "unbounded", "anchors": ["include/lsss/zbytestring.h: operator+(std::string)"]}
{"id": "C39", "title": "Containers round trip through serialization", "statement": "Deserializing the serialization of a container restores every named component.", "quantifier": "all finite maps from non-empty names to components (byte strings, integers, group elements with a correct codec)", "why_tests_cant": "unbounded number and size of components", "anchors": ["src/abe/zcontainer.cpp: serialize, deserialize, deserializeElement, setComponent, getComponent"]}
{"id": "C40", "title": "Looking up a missing component does not damage a container", "statement": "After getComponent fails for an absent name, the container still has the same components and can be serialized.", "quantifier": "all containers and names, all histories", "why_tests_cant": "depends on the history of failed lookups", "anchors": ["src/abe/zcontainer.cpp: getComponent, serialize"]}
{"id": "C41", "title": "Ciphertexts survive export and import", "statement": "loadFromBytes(exportToBytes(ct)) restores scheme id, uid and all components.", "quantifier": "all ciphertexts that can be constructed through the API", "why_tests_cant": "unbounded components and uid values", "anchors": ["src/abe/zciphertext.cpp: exportToBytes, loadFromBytes, setHeader, getHeader"]}
{"id": "C42", "title": "Keys survive export and import", "statement": "Loading an exported key restores algorithm id, uid, ID string and all components.", "quantifier": "all keys that can be constructed through the API", "why_tests_cant": "unbounded", "anchors": ["src/abe/zkey.cpp: getHeader, exportKeyToBytes", "src/abe/zkeystore.cpp: constructKeyFromBytes", "src/abe/zcontextabe.cpp: loadKey"]}
{"id": "C43", "title": "Container equality means equal contents", "statement": "Two containers compare equal iff they have the same names with equal components.", "quantifier": "all pairs of containers", "why_tests_cant": "unbounded; needs pairs that differ only in an extra key", "anchors": ["src/abe/zcontainer.cpp: operator=="]}
{"id": "C44", "title": "CP-ABE decapsulation returns the encapsulated key", "statement": "For every master key, attribute list, policy satisfied by it and all randomness, decryptKEM on the output of encryptKEM returns the same symmetric key, provided component labels do not collide.", "quantifier": "all policies, attribute lists, master secrets, encryption randomness; any bilinear pairing over a prime order field", "why_tests_cant": "unbounded policies and all random choices", "anchors": ["schemes/zcontextcpwaters.cpp: generateParams, generateDecryptionKey, encryptKEM, decryptKEM"]}
{"id": "C45", "title": "KP-ABE decapsulation returns the encapsulated key", "statement": "Same as C44 for the key-policy scheme.", "quantifier": "all policies, attribute lists, master secrets and randomness", "why_tests_cant": "unbounded", "anchors": ["schemes/zcontextkpgpsw.cpp: generateParams, generateDecryptionKey, encryptKEM, decryptKEM"]}
{"id": "C46", "title": "Encrypt then decrypt returns the plaintext", "statement": "OpenABEContextSchemeCPA::decrypt of OpenABEContextSchemeCPA::encrypt returns the plaintext for every plaintext of every length (including empty) whenever the key satisfies the policy.", "quantifier": "all plaintexts, keys and policies as in C44/C45", "why_tests_cant": "unbounded plaintexts", "anchors": ["src/abe/zcontextabe.cpp: OpenABEContextSchemeCPA::encrypt, decrypt", "src/abe/zpairing.cpp: hashFromBytes"]}
{"id": "C47", "title": "A key that does not satisfy the policy gets an error and no plaintext", "statement": "If the attribute list does not satisfy the policy, decrypt returns an error code and the output plaintext is empty, whatever it held before.", "quantifier": "all policies, unsatisfying lists and previous output contents", "why_tests_cant": "unbounded", "anchors": ["src/abe/zcontextabe.cpp: OpenABEContextSchemeCPA::decrypt", "schemes/zcontextcpwaters.cpp: decryptKEM"]}
{"id": "C48", "title": "The encryption mask does not repeat", "statement": "Different positions of one message are masked with independently derived bytes; in particular knowing part of a plaintext does not reveal other parts.", "quantifier": "all message lengths and keys, any hash function", "why_tests_cant": "only visible for messages longer than 8 KiB and for all keys", "anchors": ["src/abe/zpairing.cpp: OpenABEPairing::hashFromBytes", "src/abe/zcontextabe.cpp: encrypt"]}
{"id": "C49", "title": "Different attributes get different component labels", "statement": "OpenABEHashKey maps different attribute names to different component labels (up to collisions of the hash function).", "quantifier": "all pairs of attribute names, any hash function", "why_tests_cant": "pairs of names are unbounded", "anchors": ["src/abe/zkdf.cpp: OpenABEHashKey"]}
{"id": "C50", "title": "Symmetric key equality compares the key bytes", "statement": "Two symmetric keys with different key bytes never compare equal.", "quantifier": "all pairs of keys", "why_tests_cant": "unbounded", "anchors": ["src/abe/zsymkey.cpp: operator==(const OpenABESymKey&, const OpenABESymKey&)"]}
{"id": "C51", "title": "Symmetric key handle round trips", "statement": "OpenABESymKeyHandle::decrypt(encrypt(m)) = m for every message, with and without base64 and with every auth data.", "quantifier": "all messages including the empty one, all keys, ivs, auth data; any correct AEAD", "why_tests_cant": "message lengths cross the packing size classes; empty message is special", "anchors": ["src/abe/zsymcrypto.cpp: OpenABESymKeyHandle::encrypt, decrypt"]}
{"id": "C52", "title": "SymKeyEncHandler round trips", "statement": "SymKeyEncHandler::decrypt(encrypt(m)) = m for every message and every auth data setting.", "quantifier": "all messages, auth data, ivs, keys", "why_tests_cant": "unbounded; empty message with auth data is special", "anchors": ["src/abe/zsymcrypto.cpp: SymKeyEncHandler::encrypt, decrypt, setAuthData"]}
{"id": "C53", "title": "Streaming encryption is independent of chunking", "statement": "Encrypting or decrypting a message in any sequence of non-empty chunks gives the same bytes and the same verdict as in one piece.", "quantifier": "all messages and all ways to split them; any streaming AEAD", "why_tests_cant": "unbounded splits", "anchors": ["src/abe/zsymkey.cpp: OpenABESymKeyAuthEncStream"]}
{"id": "C54", "title": "The streaming object reports misuse", "statement": "Every call that is out of order (update or finalize before init, init twice, mixing encryption and decryption) returns an error and never touches a released cipher context.", "quantifier": "all finite call sequences", "why_tests_cant": "unbounded call histories", "anchors": ["src/abe/zsymkey.cpp: OpenABESymKeyAuthEncStream::encryptInit, encryptUpdate, encryptFinalize, decryptInit, decryptUpdate, decryptFinalize"]}
{"id": "C55", "title": "A failed authentication tag is reported", "statement": "OpenABEContextSchemeStreamSKE::decryptFinalize returns an error whenever the tag does not verify.", "quantifier": "all ciphertexts, tags and call histories", "why_tests_cant": "universal over forged inputs", "anchors": ["src/abe/zcontextske.cpp: OpenABEContextSchemeStreamSKE::decryptFinalize", "src/abe/zsymkey.cpp: OpenABESymKeyAuthEncStream::decryptFinalize"]}
{"id": "C56", "title": "Symmetric keys survive export and import", "statement": "OpenABESymKey::loadKeyFromBytes(exportKeyToBytes(k)) restores the key bytes and header fields.", "quantifier": "all symmetric keys that can be constructed through the API", "why_tests_cant": "unbounded IDs and both key sizes", "anchors": ["src/abe/zsymkey.cpp: OpenABESymKey::exportKeyToBytes, loadKeyFromBytes"]}
{"id": "C57", "title": "Exporting a streaming key and loading it restores the key", "statement": "For a key created with OpenABEContextSchemeStreamSKE::keygen, exportKey followed by loadPrivateKey under another name gives a usable copy of the key.", "quantifier": "all keys and key names", "why_tests_cant": "universal over keys; depends on which overload virtual dispatch selects", "anchors": ["src/abe/zcontextske.cpp: exportKey, loadPrivateKey", "src/abe/zkeystore.cpp: exportKeyToBytes", "include/abe/zsymkey.h: exportKeyToBytes"]}
{"id": "C58", "title": "DeriveKey fills the whole key with hash output", "statement": "DeriveKey returns exactly keyBitLen/8 bytes, all taken from hash outputs.", "quantifier": "all lengths, secrets and metadata; any hash function", "why_tests_cant": "only visible for keys longer than one hash block", "anchors": ["src/abe/zkdf.cpp: OpenABEKDF::DeriveKey"]}
{"id": "C59", "title": "HKDF and KDF2 return exactly the requested number of bytes", "statement": "ComputeHKDF and ComputeKDF2 return exactly the requested number of bytes and ComputeHKDF outputs for shorter lengths are prefixes of longer ones.", "quantifier": "all lengths, keys, salts, infos; any MAC", "why_tests_cant": "unbounded lengths", "anchors": ["src/abe/zkdf.cpp: ComputeHKDF, ComputeKDF2"]}
{"id": "C60", "title": "Key lookups do not create keys", "statement": "checkSecretKey answers true exactly for names under which a secret key was stored and not deleted, whatever lookups happened in between.", "quantifier": "all histories of keystore operations", "why_tests_cant": "depends on histories of failed lookups", "anchors": ["src/abe/zkeystore.cpp: checkSecretKey, getKey, getSecretKey"]}
{"id": "C61", "title": "The keystore behaves like a map", "statement": "getPublicKey, getSecretKey and getKey return the most recently added key of that name and kind that was not deleted since, for any history of operations.", "quantifier": "all finite histories of addKey, getKey, getPublicKey, getSecretKey, deleteKey, validateNewParamsID", "why_tests_cant": "unbounded histories", "anchors": ["src/abe/zkeystore.cpp: OpenABEKeystore"]}
{"id": "C62", "title": "Deleted keys are gone", "statement": "After deleteKeyCommand reports a key id as deleted, getKeyCommand no longer returns that key and searchKeyCommand no longer selects it.", "quantifier": "all key manager histories", "why_tests_cant": "depends on histories", "anchors": ["src/abe/zkeymgr.cpp: deleteKeyCommand, getKeyCommand, searchKeyCommand"]}
{"id": "C63", "title": "Users only read their own keys", "statement": "getKeyCommand and searchKeyCommand for a user only ever return keys stored for that user.", "quantifier": "all key manager histories, users and queries", "why_tests_cant": "unbounded histories", "anchors": ["src/abe/zkeymgr.cpp: getKeyCommand, filterKeys, searchKey"]}
{"id": "C64", "title": "Storing a key never removes another user's key", "statement": "storeWithKeyIDCommand and storeWithKeyPrefixCommand for one user never make a key of another user unavailable.", "quantifier": "all key manager histories and pairs of users", "why_tests_cant": "depends on histories of two users", "anchors": ["src/abe/zkeymgr.cpp: storeWithKeyIDCommand, storeWithKeyPrefixCommand"]}
{"id": "C65", "title": "Key search is sound and complete", "statement": "searchKeyCommand returns a key id iff the user has a stored key that satisfies the given function input, and the returned key does satisfy it.", "quantifier": "all key manager states, queries, policies and attribute lists", "why_tests_cant": "unbounded", "anchors": ["src/abe/zkeymgr.cpp: searchKey, testAKey, filterKeys"]}
{"id": "C66", "title": "Efficient search returns a cheapest key", "statement": "With isEfficient set the returned key has the minimal reported cost among all satisfying keys of the user.", "quantifier": "all key manager states and every permitted result of std::sort", "why_tests_cant": "unbounded", "anchors": ["src/abe/zkeymgr.cpp: searchKey"]}
{"id": "C67", "title": "A failed store changes nothing", "statement": "If storeWithKeyIDCommand returns false or throws, the previously stored keys are unchanged.", "quantifier": "all key manager states and key blobs", "why_tests_cant": "needs every failing input in every state", "anchors": ["src/abe/zkeymgr.cpp: storeWithKeyIDCommand"]}
{"id": "C68", "title": "Hashing attributes preserves access decisions", "statement": "If hashAttribute has no collisions, hashPolicy(P) is satisfied by hashAttributesList(A) iff P is satisfied by A.", "quantifier": "all policies and attribute lists, any hash", "why_tests_cant": "text substitution must be right for every combination of names", "anchors": ["src/lsss/hashattributes.cpp: hashPolicy, hashAttributesList, replaceAll"]}
{"id": "C69", "title": "Library state machine", "statement": "InitializeOpenABE fails when called twice without a shutdown, pairing objects can only be created between initialization and shutdown, and initialization failure of the math library is reported.", "quantifier": "all finite sequences of library calls and all outcomes of the math library initialization", "why_tests_cant": "unbounded histories and failing external calls", "anchors": ["src/abe/zabe.cpp: InitializeOpenABE, ShutdownOpenABE, AssertLibInit"]}
{"id": "C70", "title": "Scheme identifiers round trip", "statement": "OpenABE_convertStringToSchemeID and OpenABE_convertSchemeIDToString are mutually consistent and every byte that is not a scheme id is rejected by OpenABE_getSchemeID.", "quantifier": "all 256 scheme bytes and all strings", "why_tests_cant": "strings are unbounded", "anchors": ["utils/utils.cpp: OpenABE_getSchemeID, OpenABE_convertSchemeIDToString, OpenABE_convertStringToSchemeID, OpenABE_KeyTypeFromAlgorithmID"]}
{"id": "C71", "title": "Accepted numbers fit their declared width", "statement": "A number with declared width #b is accepted iff b is 4, 8, 16 or 32 and the value is at most 2^b-1.", "quantifier": "all values and widths", "why_tests_cant": "2^48 combinations", "anchors": ["src/lsss/zdriver.cpp: Driver::checkValidBit, create_expint"]}
{"id": "C72", "title": "Secret sharing works in release builds", "statement": "shareSecret gives the same result when the library is compiled with NDEBUG.", "quantifier": "all policies with at least one gate", "why_tests_cant": "a build configuration the test suite does not use", "anchors": ["src/lsss/zlsss.cpp: OpenABELSSS::iterativeShareSecret (assert with side effect)"]}
{"id": "C73", "title": "Unsigned integers survive serialization", "statement": "Deserializing what OpenABEUInteger::serialize wrote gives back the same value and bit width, and only bytes with the right tag are accepted.", "quantifier": "all 32-bit values, all widths, all byte strings", "why_tests_cant": "2^32 values times all widths; malformed inputs are unbounded", "anchors": ["include/lsss/zinteger.h: OpenABEUInteger::serialize, deserialize, isEqual"]}
{"id": "C74", "title": "The attribute-list parser accepts exactly the grammar", "statement": "createAttributeList accepts a text iff the attrlist grammar derives its tokens, and the list holds exactly the attributes named in the text.", "quantifier": "all byte strings", "why_tests_cant": "unbounded texts; conflicts in the grammar are resolved silently by the parser generator", "anchors": ["include/lsss/zparser.yy: attrlist", "src/lsss/zparser.tab.cc: Parser::parse", "src/lsss/zattributelist.cpp: createAttributeList"]}
{"id": "C75", "title": "Attribute-list equality compares the lists", "statement": "OpenABEAttributeList::isEqual holds iff the two lists have the same attributes.", "quantifier": "all pairs of attribute lists", "why_tests_cant": "quantifies over all pairs", "anchors": ["src/lsss/zattributelist.cpp: OpenABEAttributeList::isEqual"]}
{"id": "C76", "title": "The scanner tables implement the lexical rules", "statement": "The generated scanner tokenizes every text by the longest match of the lexical rules, and writing down tokens and scanning them again gives the same tokens.", "quantifier": "all byte strings and all token sequences", "why_tests_cant": "unbounded texts; the automaton is generated code", "anchors": ["include/lsss/zscanner.ll", "src/lsss/zscanner.cpp: Scanner::lex"]}
{"id": "C77", "title": "Keys stored with a prefix keep their ids apart", "statement": "Keys that one user stores with storeWithKeyPrefixCommand under one prefix get pairwise different ids, so that none overwrites another.", "quantifier": "all runs of stores, any number of keys, other users in between", "why_tests_cant": "needs more keys than any test stores", "anchors": ["src/abe/zkeymgr.cpp: storeWithKeyPrefixCommand", "include/abe/zkeymgr.h: MAX_KEYS_PER_USER"]}
{"id": "C78", "title": "Keys without function input are rejected", "statement": "Storing the exported bytes of a well-formed key of a scheme that has no function input (symmetric, signature, public key) returns false or raises an error.", "quantifier": "all well-formed keys of those schemes, all states", "why_tests_cant": "undefined behaviour need not show in a test", "anchors": ["src/abe/zkeymgr.cpp: storeWithKeyIDCommand", "utils/utils.cpp: getFunctionInput"]}
{"id": "C79", "title": "A user never holds two keys with the same function input", "statement": "In every reachable state the keys of one user have pairwise different function inputs, and a well-formed key is accepted iff the user has no key with the same input under another id.", "quantifier": "all key manager histories, users and keys", "why_tests_cant": "unbounded histories", "anchors": ["src/abe/zkeymgr.cpp: storeWithKeyIDCommand"]}
{"id": "C80", "title": "Accepted symmetric keys are long enough for the cipher", "statement": "Every key that SymKeyEncHandler accepts has as many bytes as AES-256 reads, and encrypting is defined for every handler that can be constructed.", "quantifier": "all keys, modes, messages and IVs", "why_tests_cant": "reading beyond a heap buffer usually goes unnoticed", "anchors": ["src/abe/zsymkey.cpp: OpenABESymKey::setSymmetricKey, OpenABESymKeyAuthEnc::encrypt", "src/abe/zsymcrypto.cpp: SymKeyEncHandler::setSKEHandler, encrypt"]}
{"id": "C81", "title": "No history of the stream context is undefined", "statement": "Whatever calls are made on OpenABEContextSchemeStreamSKE, in any order, none reads beyond a key or uses a missing cipher context.", "quantifier": "all finite sequences of keygen, exportKey, loadPrivateKey, deleteKey and the encrypt and decrypt calls", "why_tests_cant": "unbounded histories; the failing load has to be followed by a use", "anchors": ["src/abe/zcontextske.cpp: OpenABEContextSchemeStreamSKE, OpenABE_loadSymmetricKey"]}
{"id": "C82", "title": "Stream decryption checks the whole tag", "statement": "Stream decryption only accepts tags of 16 bytes that equal the tag of the ciphertext.", "quantifier": "all tags of all lengths, all ciphertexts", "why_tests_cant": "every length of every tag", "anchors": ["src/abe/zsymkey.cpp: OpenABESymKeyAuthEncStream::decryptInit, decryptFinalize"]}
{"id": "C83", "title": "A stream object can be used again", "statement": "What a stream object encrypts does not depend on what it encrypted before.", "quantifier": "all histories of one object, all authentication data", "why_tests_cant": "depends on histories", "anchors": ["src/abe/zsymkey.cpp: OpenABESymKeyAuthEncStream::initAddAuthData, encryptFinalize, decryptFinalize"]}
{"id": "C84", "title": "The string interface reports failed decryption", "statement": "SymKeyEncHandler::decrypt on strings distinguishes a failed decryption from the empty message.", "quantifier": "all ciphertexts and keys", "why_tests_cant": "universal over forged inputs", "anchors": ["src/abe/zsymcrypto.cpp: SymKeyEncHandler::decrypt(std::string)"]}
{"id": "C85", "title": "Malformed ciphertexts are handled", "statement": "Decrypting any byte string is defined: it gives a message or an error.", "quantifier": "all byte strings, keys and authentication data", "why_tests_cant": "malformed inputs are unbounded; the out of bounds read shows only under a sanitizer", "anchors": ["src/abe/zsymcrypto.cpp: OpenABESymKeyHandle::decrypt, SymKeyEncHandler::decrypt", "src/abe/zsymkey.cpp: OpenABESymKeyAuthEnc::decrypt"]}
{"id": "C86", "title": "Comparisons with numbers without width", "statement": "The policies the public Driver methods lt_policy, gt_policy and eq_policy build for a number without width hold for exactly the values that are below, above or equal to it.", "quantifier": "all 32-bit numbers and values, all attribute lists that carry the markers of one value", "why_tests_cant": "2^64 pairs of number and value", "anchors": ["src/lsss/zdriver.cpp: Driver::cmp_policy, lt_policy, gt_policy, eq_policy, bit_marker_flexint", "include/lsss/zparser.yy: number"]}
{"id": "C87", "title": "Deleting a policy releases its tree", "statement": "Deleting the root of a policy tree releases every node exactly once and uses no released node.", "quantifier": "all trees and reference counts", "why_tests_cant": "leaks do not change results", "anchors": ["src/lsss/zpolicy.cpp: OpenABETreeNode::~OpenABETreeNode", "src/lsss/zobject.cpp: ZObject::deRef"]}
{"id": "C88", "title": "Encapsulated keys have supported lengths", "statement": "encryptKEM and decryptKEM return a key only for the lengths 16 and 32, it is the output of the key derivation for that length, and with every other length the same call answers an error code and no key.", "quantifier": "all schemes, contexts, inputs, random values and requested lengths", "why_tests_cant": "2^32 lengths times all contexts", "anchors": ["src/abe/zsymkey.cpp: OpenABESymKey::hashToSymmetricKey, setSymmetricKey", "src/abe/zkdf.cpp: OpenABEKDF::ComputeKDF2", "schemes/zcontextcpwaters.cpp: encryptKEM, decryptKEM", "schemes/zcontextkpgpsw.cpp: encryptKEM, decryptKEM"]}
{"id": "C89", "title": "Return codes of the schemes", "statement": "generateParams answers INVALID_PARAMS_ID exactly when an id already names a key; generateDecryptionKey, encryptKEM, decryptKEM, encrypt, decrypt and exportKey answer the documented code for null or wrong inputs and for missing keys, and such a failing call changes no key.", "quantifier": "both schemes, all contexts, ids, inputs and random values", "why_tests_cant": "every context times every id", "anchors": ["src/abe/zcontextabe.cpp: encrypt, decrypt, exportKey", "schemes/zcontextcpwaters.cpp: generateParams, generateDecryptionKey, encryptKEM, decryptKEM", "schemes/zcontextkpgpsw.cpp: generateParams, generateDecryptionKey, encryptKEM, decryptKEM"]}
{"id": "C90", "title": "Keys and ciphertexts work after they were sent as bytes", "statement": "Parameters, user keys and ciphertexts that are exported by one context and loaded by others give the same encryption and decryption results as in the context that made them, so decryption gives the message exactly when the policy holds.", "quantifier": "both schemes, all policies, attribute lists, messages, ids and random values", "why_tests_cant": "the composition of every generated object with its byte format", "anchors": ["src/abe/zcontextabe.cpp: exportKey, loadKey, loadMasterPublicParams, loadMasterSecretParams, loadUserSecretParams, encrypt, decrypt", "src/abe/zkey.cpp", "src/abe/zciphertext.cpp", "src/abe/zcontainer.cpp"]}
{"id": "C91", "title": "Keys are not overwritten", "statement": "Generating or loading a key keeps every key that the context already holds, and exporting an id gives the key made under it.", "quantifier": "all contexts, ids and inputs", "why_tests_cant": "needs the id of another key by chance", "anchors": ["src/abe/zcontextabe.cpp: loadKey, exportKey", "schemes/zcontextcpwaters.cpp: generateDecryptionKey", "schemes/zcontextkpgpsw.cpp: generateDecryptionKey", "src/abe/zkeystore.cpp: addKey, getKey"]}
{"id": "C92", "title": "Loading malformed key bytes returns an error code", "statement": "loadKey answers an error code, and raises nothing, for every byte string that is no key of the scheme of its context.", "quantifier": "all byte strings, contexts and ids", "why_tests_cant": "all byte strings", "anchors": ["src/abe/zcontextabe.cpp: loadKey", "src/abe/zkeystore.cpp: parseKeyHeader, constructKeyFromBytes"]}
{"id": "C93", "title": "The explicit stack of the tree scan ends and computes the recursive marking", "statement": "On every tree of AND and OR gates the loop of iterativeScanTree ends after at most twice as many iterations as there are nodes, whatever flags the nodes carry, and leaves the marks of the recursive definition, so the root mark of a fresh tree is the Boolean value of the policy.", "quantifier": "all trees, all leftover flags, all attribute lists", "why_tests_cant": "unbounded trees; a loop that revisits nodes shows only on particular shapes and flags", "anchors": ["src/lsss/zlsss.cpp: iterativeScanTree, determineIfNodeShouldBeMarked"]}
{"id": "C94", "title": "Public key encryption round trips", "statement": "With any key encapsulation mechanism whose receiver recovers the key of the sender, decrypt returns the string given to encrypt, also after the ciphertext was exported and loaded, and encrypt keeps what the mechanism wrote.", "quantifier": "all mechanisms with keys of at least 32 bytes, all contexts, strings and IVs", "why_tests_cant": "the mechanism is an abstract class", "anchors": ["src/abe/zcontextpke.cpp: OpenABEContextSchemePKE::encrypt, decrypt"]}
{"id": "C95", "title": "Public key decryption accepts only authentic ciphertexts", "statement": "decrypt succeeds exactly when the Tag component is the authentication tag of header and CT component under the recovered key; a changed header or body is reported, and no error leaves a plaintext.", "quantifier": "all mechanisms, contexts and ciphertext objects", "why_tests_cant": "all byte strings", "anchors": ["src/abe/zcontextpke.cpp: OpenABEContextSchemePKE::decrypt", "src/abe/zsymkey.cpp: OpenABESymKeyAuthEnc::decrypt"]}
{"id": "C96", "title": "Return codes of public key encryption", "statement": "encrypt, decrypt, loadPublicKey and loadPrivateKey answer the documented code for each failing step, a failed load changes nothing, a successful one stores a key of the scheme that passed validation, and no call is undefined.", "quantifier": "all mechanisms, contexts, ids and byte strings", "why_tests_cant": "all byte strings and contexts", "anchors": ["src/abe/zcontextpke.cpp: OpenABEContextSchemePKE::encrypt, decrypt, loadPublicKey, loadPrivateKey"]}
{"id": "C97", "title": "Secret sharing with ZP objects computes in the field", "statement": "shareSecret, recoverCoefficients and LSSStestSecretRecovery carried out with ZP objects (integers of any size with a modulus and a flag) give exactly the values computed in the field of integers modulo the group order, fail exactly when those fail, and an authorised set recovers the secret; reduced secrets have reduced shares, and an unauthorised set sees each collection of share objects for equally many random integers whatever the secret.", "quantifier": "all primes, all policy trees whose gates have fewer inputs than the prime, all secrets with any integer value with or without an order, all tapes of random integers", "why_tests_cant": "all integers and all primes; the privacy part counts all random choices", "anchors": ["src/lsss/zlsss.cpp: shareSecret, recoverCoefficients, evaluatePolynomial, calculateCoefficient, LSSStestSecretRecovery", "src/lsss/zelement_bp.cpp: class ZP"]}
{"id": "C98", "title": "ZP arithmetic is arithmetic modulo the order", "statement": "The operators of ZP return the reduced result modulo the order of their operands, division ends the process exactly for a zero divisor, and the comparison operators compare residue classes.", "quantifier": "all pairs of ZP objects: any integers, orders and flags", "why_tests_cant": "all integers and orders", "anchors": ["src/lsss/zelement_bp.cpp: operator+, operator-, operator*, operator/, power, comparison and shift operators, setFrom, setOrder, setRandom, setPrime, deserialize, ismember", "include/lsss/zelement.h: zmbignum_add, zmbignum_mod"]}
{"id": "C99", "title": "Group elements: subtraction, division and the compression flag", "statement": "The operators of G1, G2 and GT are the group operations; a serialized element can be read back under any setting of the global compression flag, and keys derived from GT elements do not depend on it.", "quantifier": "all groups and elements, all settings of the flag, all binary formats that meet RELIC's contract", "why_tests_cant": "all group elements", "anchors": ["src/lsss/zelement_bp.cpp: G1::operator-, G2::operator-, GT::operator/, set_compression_flag, G1::deserialize, G1::getDefaultSize, GT::hashToBytes"]}
{"id": "C100", "title": "Privacy of shares when the random coefficients are never zero", "statement": "If the random number generator draws from the non-zero elements only, an unauthorised set still learns nothing about the secret.", "quantifier": "all finite fields, policies, unauthorised sets, pairs of secrets and tests on what is seen", "why_tests_cant": "a statement about all random choices", "anchors": ["src/lsss/zlsss.cpp: iterativeShareSecret (coefficient.setRandom)", "src/lsss/zelement_bp.cpp: ZP::setRandom"]}
{"id": "C101", "title": "The function input can be read back from keys and ciphertexts", "statement": "getFunctionInput of a ciphertext or of a user key gives the policy or attribute list that it was made for: the same policy, or a list with the same attributes and the same text; export and import do not change the answer.", "quantifier": "all schemes, contexts, inputs that come from the parser, messages and random values; all exported ciphertexts", "why_tests_cant": "all policies and attribute lists", "anchors": ["utils/utils.cpp: getFunctionInput(OpenABECiphertext*), getFunctionInput(OpenABEKey*)", "schemes/zcontextcpwaters.cpp, schemes/zcontextkpgpsw.cpp: generateDecryptionKey, encryptKEM"]}
{"id": "C102", "title": "A key found by the key manager decrypts, and one is found whenever one exists", "statement": "For texts of up to 64 KiB in which no name is another one followed by % and a number, whose names do not collide after hashing, and group elements of up to 1024 bytes (or, with longer ones, whenever the lengths fit their fields): for a ciphertext made for some text and a key manager into which only keys issued under the same parameters were stored, none of them under the empty id, searching with the function input read from the ciphertext returns the id of a key exactly if the user has a stored key whose text makes the policy true, and loading the bytes read under this id into any context decrypts to the message.", "quantifier": "all texts, histories of the key manager, users, parameters, messages, random values, contexts", "why_tests_cant": "composition of the parser, both schemes, all codecs and the key manager for all inputs", "anchors": ["src/abe/zkeymgr.cpp: searchKeyCommand, getKeyCommand, storeWithKeyIDCommand", "utils/utils.cpp: getFunctionInput", "src/abe/zcontextabe.cpp: decrypt, loadUserSecretParams"]}
{"id": "C103", "title": "Contexts are created exactly for the two schemes", "statement": "createContextABE and createContextABESchemeCPA return a context exactly for the ids of CP-Waters and KP-GPSW, of that scheme and without keys, a null pointer for any other id, and never raise.", "quantifier": "all 256 ids", "why_tests_cant": "complete statement about all ids and resulting contexts", "anchors": ["utils/abecontext.cpp: createContextABE, createContextABESchemeCPA", "src/abe/zcontextabe.cpp: OpenABEContextSchemeCPA::OpenABEContextSchemeCPA"]}
{"id": "C104", "title": "Every error has its own text", "statement": "OpenABE_errorToString gives different texts for different codes, and every code of the enumeration has a text different from that of unknown numbers.", "quantifier": "all natural numbers as codes, all members of the enumeration", "why_tests_cant": "all numbers", "anchors": ["src/abe/zerror.cpp: OpenABE_errorToString", "include/abe/zerror.h: OpenABE_ERROR"]}
{"id": "C105", "title": "A copy of a function input is the same input", "statement": "copyFunctionInput returns an object that can be used in place of its argument.", "quantifier": "all policies and attribute lists", "why_tests_cant": "all inputs", "anchors": ["src/lsss/zfunctioninput.cpp: copyFunctionInput", "include/lsss/zobject.h: ZObject::clone", "include/lsss/zpolicy.h: OpenABEPolicy"]}
{"id": "C106", "title": "A deleted key is gone", "statement": "After deleteKey the id names no key, all other ids name what they named, every operation under the id fails as if the key had never existed, and the key material is erased.", "quantifier": "all contexts, ids, schemes, inputs, ciphertexts", "why_tests_cant": "all contents of the key store", "anchors": ["src/abe/zcontextabe.cpp: deleteKey", "src/abe/zkeystore.cpp: deleteKey", "src/abe/zcontainer.cpp: zeroize"]}
{"id": "C107", "title": "Registered users and their passphrases", "statement": "The active users are those registered and not since deleted, after any sequence of calls; a passphrase is needed to read the keys of its user, and is forgotten when the user is deleted.", "quantifier": "all sequences of setPassphrase, store and delete calls, all users", "why_tests_cant": "all histories", "anchors": ["src/abe/zkeymgr.cpp: setPassphrase, getActiveUsers, deleteKeyCommand"]}
{"id": "C108", "title": "The hash key and the presence of keys are reported correctly", "statement": "getHashKey returns the hash key drawn by generateParams, also in another context after export and import, and raises without parameters; checkSecretKey answers whether the id names a secret key.", "quantifier": "all schemes, contexts, ids and random values", "why_tests_cant": "all contexts and histories", "anchors": ["src/abe/zcontextabe.cpp: getHashKey, checkSecretKey, deleteKey", "src/abe/zkeystore.cpp: checkSecretKey"]}
{"id": "C109", "title": "Keys of the symmetric stream context", "statement": "keygen refuses an id that names a key and changes nothing; for an unused id it stores the random bytes as the key and leaves the other keys and running streams alone; deleteKey removes the key, keeps the others and makes the id usable again.", "quantifier": "all contexts, ids, random values of 32 bytes", "why_tests_cant": "all contents of the key store", "anchors": ["src/abe/zcontextske.cpp: keygen, deleteKey, encryptInit, decryptInit", "src/abe/zkeystore.cpp: checkSecretKey, deleteKey"]}
{"id": "C110", "title": "Keys of the public key context can be moved and deleted", "statement": "A public or private key whose components fit the length fields and that is exported and loaded into another context of the scheme that has its parameters is held there under the new id with the same components, if validation accepts it; after deleteKey the id names nothing, other ids are untouched, and encryption in the name of the deleted sender reports the missing key.", "quantifier": "all mechanisms, contexts, ids and keys that can be written", "why_tests_cant": "all keys and contexts", "anchors": ["src/abe/zcontextpke.cpp: OpenABEContextSchemePKE::exportKey, loadPublicKey, loadPrivateKey, deleteKey, encrypt"]}
{"id": "C111", "title": "Ciphertexts without header", "statement": "exportToBytes is the packed header followed by exportToBytesWithoutHeader; the latter can be loaded into a new object, which then has the same components and keeps its own header, and setHeader restores the original header.", "quantifier": "all ciphertext objects, headers and binary formats of the groups", "why_tests_cant": "all component sets", "anchors": ["src/abe/zciphertext.cpp: exportToBytes, exportToBytesWithoutHeader, loadFromBytesWithoutHeader, setHeader"]}
{"id": "C112", "title": "Attribute lists as objects", "statement": "matchAttribute finds exactly the attributes written in the text, plain or numeric; no attribute of a list that was read is empty or contains a bar, so that the printed form determines the attributes and their order; syncOrigAttributes takes over exactly the original attributes with the given prefix.", "quantifier": "all texts, all pairs of lists", "why_tests_cant": "all texts", "anchors": ["src/lsss/zattributelist.cpp: matchAttribute, toString, addAttribute, syncOrigAttributes"]}
{"id": "C113", "title": "Keys cannot be combined against a policy that none of them satisfies", "statement": "Whoever holds any number of decryption keys, none of which satisfies the policy of a ciphertext (ciphertext-policy) or whose policies the attributes of the ciphertext do not satisfy (key-policy), can compute the group element behind the session key by no linear combination of pairings of the parameters, the keys, the ciphertext and hashed names, except for a fraction of at most 4/q (3/q) of the random values; with one key that satisfies it, there is such a combination that always works.", "quantifier": "all policies, numbers of keys, attribute lists, bilinear groups of prime order q, linear attacks fixed before the random values", "why_tests_cant": "all attacks and all random values: tests cannot enumerate attackers", "anchors": ["schemes/zcontextcpwaters.cpp: generateDecryptionKey, encryptKEM, generateParams", "schemes/zcontextkpgpsw.cpp: generateDecryptionKey, encryptKEM, generateParams", "src/lsss/zlsss.cpp: shareSecret"]}
{"id": "C114", "title": "Several threads use one key manager", "statement": "What threads observe that use the commands that take the mutex (storeWithKeyPrefixCommand, getKeyCommand, searchKeyCommand, deleteKeyCommand) is explained by some order of these commands that respects calls and returns; no two threads access a member at once; no thread is blocked for good; when no command is under way, the state is one that a single thread could have reached. The commands without the mutex do not have this property.", "quantifier": "any number of threads, calls and interleavings, all states of the key manager", "why_tests_cant": "all interleavings: a scheduler shows a test only a few of them", "anchors": ["src/abe/zkeymgr.cpp: storeWithKeyIDCommand, storeWithKeyPrefixCommand, getKeyCommand, searchKeyCommand, deleteKeyCommand, setPassphrase, getActiveUsers, getUserKeyCount", "include/abe/zkeymgr.h: OpenABEKeystoreManager, ks_lock_"]}
{"id": "C115", "title": "Session keys look random to attackers who adapt", "statement": "An attacker that asks for keys and for one ciphertext in any order, and tests linear relations between everything it sees and a challenge element, all depending on the answers so far, guesses differently for at most the fraction 5n/q (ciphertext-policy) or 4n/q (key-policy) of the random values whether the challenge is the element behind the session key or a random one, where n is the number of tests, provided no key ever held satisfies the policy; with a key that satisfies it, one test suffices.", "quantifier": "all adaptive attackers (decision trees of any depth), policies, attribute lists, bilinear groups of prime order q", "why_tests_cant": "all attackers and all random values: tests cannot enumerate attackers", "anchors": ["schemes/zcontextcpwaters.cpp: generateDecryptionKey, encryptKEM, generateParams", "schemes/zcontextkpgpsw.cpp: generateDecryptionKey, encryptKEM, generateParams", "src/lsss/zlsss.cpp: shareSecret"]}
{"id": "C116", "title": "Scanning does not depend on how the text is buffered", "statement": "Calling yylex again and again on a fresh scanner returns the tokens of the whole text one by one and then the end of the file for ever, whatever the sizes of the buffer and of the reads, with no access outside of the buffer or to unwritten bytes, provided that no piece of the text (token or run of white space) has 2^30 - 1 bytes; with such a piece, growing the buffer overflows an int.", "quantifier": "all texts, including zero bytes, all buffer and read sizes", "why_tests_cant": "all texts and all positions of tokens relative to the ends of the buffer", "anchors": ["src/lsss/zscanner.cpp: yylex, yy_get_next_buffer, yy_get_previous_state, yy_try_NUL_trans, yyrestart, yy_create_buffer, yy_flush_buffer, LexerInput"]}
{"id": "C117", "title": "Failed operations do not damage keys and ciphertexts", "statement": "Whatever calls a program makes on one context and its ciphertexts, a call that fails because a component is missing changes no later result of key generation, encryption, decryption, loading, deletion or a query, and stored keys and ciphertexts can still be exported.", "quantifier": "all lists of calls with all arguments, random values and bytes from outside, both schemes", "why_tests_cant": "all histories of calls, in particular those in which an earlier call failed", "anchors": ["src/abe/zcontainer.cpp: getComponent, serialize", "src/abe/zcontextabe.cpp: keygen, encrypt, decrypt, exportKey, loadKey, deleteKey, getHashKey", "schemes/zcontextcpwaters.cpp: generateDecryptionKey, encryptKEM, decryptKEM", "schemes/zcontextkpgpsw.cpp: generateDecryptionKey, encryptKEM, decryptKEM", "src/abe/zkeystore.cpp: exportKeyToBytes"]}
{"id": "C118", "title": "No history of calls on a context is undefined", "statement": "On a new context, after any list of calls in any order, with any failures in between, every call returns or raises: no null pointer is followed and the process does not end; generating parameters and keys, encrypting and decrypting always return a code.", "quantifier": "all lists of calls with all identifiers, plaintexts, policies, attributes, random values and loaded bytes, both schemes", "why_tests_cant": "all histories, in particular the contents of keys that come from outside", "anchors": ["src/abe/zcontextabe.cpp: generateParams, keygen, encrypt, decrypt, exportKey, loadKey, deleteKey, getHashKey", "schemes/zcontextcpwaters.cpp: generateParams, generateDecryptionKey, encryptKEM, decryptKEM", "schemes/zcontextkpgpsw.cpp: generateParams, generateDecryptionKey, encryptKEM, decryptKEM", "include/abe/zcontainer.h: getZP, getG1, getG2, getGT, getByteString", "src/lsss/zlsss.cpp: shareSecret, recoverCoefficients"]}
{"id": "C119", "title": "The parser manages the memory of its values", "statement": "Parsing a text never reads or releases an object that is not there or has another type, whatever the union of a token holds, and in particular on every way of rejecting a text; after parsing, only the nodes of the accepted policy are left, and dropping the policy releases them.", "quantifier": "all texts of policies and attribute lists", "why_tests_cant": "all texts, in particular all positions of a syntax error and all states of the stack that the error recovery unwinds", "anchors": ["src/lsss/zparser.tab.cc: parse, yy_destroy_, yypop_, yyerrlab, yyreturn", "src/lsss/zscanner.cpp: lex", "src/lsss/zdriver.cpp: error, set_policy, set_attrlist, concat_attr, leaf_node, kof2_tree, range_policy, parse_string", "src/lsss/zpolicy.cpp: OpenABETreeNode::~OpenABETreeNode", "src/zobject.cpp: deRef"]}
{"id": "C120", "title": "Containers release their components", "statement": "For every history of calls that create, fill, read, write, load and destroy containers, no object is released twice or used after its release, every call returns what the call on values returns, and when all containers are destroyed nothing is left in memory.", "quantifier": "all histories of calls on any number of containers, all components and blobs", "why_tests_cant": "all histories; a leak or a double release shows in a test only with instrumented memory", "anchors": ["src/abe/zcontainer.cpp: setComponent, getComponent, deleteComponent, serialize, deserialize, ~OpenABEContainer", "include/abe/zcontainer.h: val", "src/lsss/zelement_bp.cpp: G1::serialize, G2::serialize, GT::serialize, getBytes"]}
{"id": "C121", "title": "Keys and ciphertexts take the memory of their components", "statement": "Generating a decryption key or encrypting has no memory error and yields the same key or ciphertext as on values; after destroying it, memory is as before the call, also when the call failed.", "quantifier": "all heaps, parameters, policies, attribute lists, plaintexts and random values, both schemes", "why_tests_cant": "all inputs, in particular those that repeat a name", "anchors": ["schemes/zcontextcpwaters.cpp: generateDecryptionKey, encryptKEM", "schemes/zcontextkpgpsw.cpp: generateDecryptionKey, encryptKEM", "src/abe/zcontextabe.cpp: encrypt", "src/lsss/zelement_bp.cpp: GT::hashToBytes", "src/abe/zsymkey.cpp: hashToSymmetricKey", "src/abe/zcontainer.cpp: setComponent"]}
{"id": "C122", "title": "Symmetric encryption releases its contexts, objects and buffers", "statement": "For every history of calls on a stream object or on a stream context, in any order and whatever fails, no cipher context or stream object is used after its release or released twice, at most one context per stream object is on the heap, and the destructor leaves the heap as it was; encrypting and decrypting whole messages with a key handle leaves nothing on the heap.", "quantifier": "all histories of calls, all keys, messages, tags and heaps", "why_tests_cant": "all orders of calls, in particular abandoned and restarted streams and hostile messages", "anchors": ["src/abe/zsymkey.cpp: OpenABESymKeyAuthEnc::encrypt, OpenABESymKeyAuthEnc::decrypt, OpenABESymKeyAuthEncStream", "src/abe/zcontextske.cpp: OpenABEContextSchemeStreamSKE", "src/abe/zsymcrypto.cpp: OpenABESymKeyHandle::encrypt, OpenABESymKeyHandle::decrypt", "include/abe/zabe.h: SAFE_DELETE"]}
{"id": "C123", "title": "A context manages the memory of its keys and ciphertexts", "statement": "For every history of calls on a context, with any number of keys and ciphertexts, any arguments, failures and loaded bytes, each call returns what the same call on values returns; no object is used after its release or released twice; memory holds the objects of the stored keys and of the ciphertexts, each once; and when the context and the ciphertexts are destroyed nothing is left.", "quantifier": "all histories of calls with all arguments, random values and loaded bytes, both schemes", "why_tests_cant": "all histories, in particular keys that are replaced or deleted and calls that fail half way; leaks and dangling pointers do not show in results", "anchors": ["src/abe/zcontextabe.cpp: generateParams, keygen, encrypt, decrypt, exportKey, loadKey, deleteKey, getHashKey", "src/abe/zkeystore.cpp: addKey, getPublicKey, getSecretKey, getKey, deleteKey, ~OpenABEKeystore", "schemes/zcontextcpwaters.cpp: generateParams, generateDecryptionKey, encryptKEM, decryptKEM", "schemes/zcontextkpgpsw.cpp: generateParams, generateDecryptionKey, encryptKEM, decryptKEM", "src/abe/zciphertext.cpp: exportToBytes, loadFromBytes", "src/abe/zkey.cpp: exportKeyToBytes, loadKeyFromBytes", "src/abe/zcontainer.cpp: ~OpenABEContainer"]}
{"id": "C124", "title": "Threads that follow the documentation can use the library at the same time", "statement": "Initialisation, shutdown, OpenABEStateContext and making pairing objects are programs of single accesses. When every thread has its own context of RELIC and no thread initialises the library or shuts it down meanwhile, no interleaving has a data race and every thread gets exactly the results it gets alone; threads that make an OpenABEStateContext first always succeed. A thread that forgets it passes AssertLibInit and follows a null pointer; a failure of RELIC is not reported; two initialisations race and can both succeed; shutdown races with pairing objects; without threads in RELIC the documented use is a race.", "quantifier": "all numbers of threads, all sequences of calls of each, all interleavings, all start states", "why_tests_cant": "a data race depends on the schedule; no test runs all interleavings of all call sequences", "anchors": ["src/abe/zabe.cpp: OpenABE_initialize, OpenABE_shutdown, AssertLibInit, InitializeOpenABE, ShutdownOpenABE, OpenABEStateContext", "src/abe/zpairing.cpp: zMathInitLibrary, OpenABEPairing", "include/abe_lsss.h: OpenABEStateContext"]}
{"id": "C125", "title": "Places of tokens are right", "statement": "The scanner gives every token the line and column at which it begins and ends in the text, and the end of the text its own; the counters do not overflow.", "quantifier": "all texts (shorter than 2^31 - 1 bytes for the positive part), all tokens", "why_tests_cant": "Counting goes wrong at newlines, blanks, at the tag in front of the text and after two thousand million columns; tests look at a few short texts on one line.", "anchors": ["include/lsss/location.hh: position, location, step, lines, columns, add_", "src/lsss/zscanner.cpp: yylex, YY_USER_ACTION", "src/lsss/zdriver.cpp: parse_string"]}
{"id": "C126", "title": "Syntax errors point at the first token that cannot stand there", "statement": "A rejected text is reported exactly once. The tokens before the reported one begin some policy (or attribute list), no policy or list goes on with the reported token, and no other text with the same beginning and the same next kind of token is accepted. The place is that of the reported token. Everything that the message says is expected can really follow. Accepted texts give no message.", "quantifier": "all policy and attribute list texts (shorter than 2^31 - 6 bytes), all calendars, all other texts with the same beginning", "why_tests_cant": "It is about all continuations of a text: a test cannot try them, and the tables of the generated parser are not readable.", "anchors": ["src/lsss/zparser.tab.cc: parse, yysyntax_error_", "src/lsss/zscanner.cpp: yylex", "src/lsss/zdriver.cpp: error, parse_string, parse_stream"]}
{"id": "C127", "title": "The size of a policy and the depth of recursion over it are bounded by its text", "statement": "A policy parsed from n bytes has at most 11 n leaves, fewer than 22 n nodes and at most n + 30 levels. Printing and copying it need exactly one frame of the call stack for each level, deleting it needs one. Wanted: a call stack of fixed size is enough; it is not.", "quantifier": "all texts, all trees, all sizes of the call stack", "why_tests_cant": "Stack exhaustion needs very deep inputs, and no finite set of inputs bounds the depth for all texts.", "anchors": ["src/lsss/zpolicy.cpp: OpenABETreeNode (copy constructor), toString, ~OpenABETreeNode, OpenABEPolicy (copy constructor)", "include/lsss/zpolicy.h: toString", "src/lsss/zdriver.cpp: bit_marker_list, eq_policy, cmp_policy, range_policy"]}
{"id": "C128", "title": "Keys and ciphertexts are linear in the texts they are made from and always fit their length fields", "statement": "Exported public parameters take four group elements and 130 bytes besides hash key and id. A key or ciphertext for an attribute list of n bytes takes at most 11 n group elements, for a policy of n bytes at most 22 n, a ciphertext also the bytes of its plaintext once. So texts of up to 64 KiB, with elements of up to 1024 bytes, names that are not another name followed by % and a number, and labels that do not collide after hashing, give keys and ciphertexts that can be exported, loaded and used in other contexts, with no further assumption about sizes.", "quantifier": "all texts, groups and encodings with elements of bounded size, random values, contexts, ids and plaintexts", "why_tests_cant": "Length fields overflow only for inputs of gigabytes, and the growth of the number of components (numeric attributes and comparisons unfold into up to 32 markers) has no worst case that tests could find.", "anchors": ["schemes/zcontextcpwaters.cpp: generateDecryptionKey, encryptKEM", "schemes/zcontextkpgpsw.cpp: generateDecryptionKey, encryptKEM", "src/abe/zkey.cpp: exportKeyToBytes", "src/abe/zciphertext.cpp: exportToBytes", "src/abe/zcontainer.cpp: serialize", "src/lsss/zattributelist.cpp: toCompactString"]}
{"id": "C129", "title": "Only dates that exist are accepted, and they mean the day that is written", "statement": "The test for dates accepts exactly the dates of the Gregorian calendar. A written date, existing or not, becomes the number of its day counted on from the first of the month, and conditions compare these numbers. Wanted: dates that do not exist are rejected, and a range covers the days that are written; both fail, since the answer of the test is not used and a range whose first day does not exist moves to another month.", "quantifier": "all integers (for the test); all months, days, years, prefixes, lists, formulas and fixed time zones (for the meaning)", "why_tests_cant": "The test has a case for every kind of month and year and no effect; how a date that does not exist is understood depends on the C library and shows only for particular dates and zones.", "anchors": ["src/lsss/zdriver.cpp: is_valid_date, validate_date, validate_range_date, range_date_in_policy, get_month"]}
{"id": "C130", "title": "Secrets do not stay in memory after use", "statement": "Wiping a byte string overwrites its elements, and a symmetric key object that gets keys of one length leaves none behind. Wanted: no session key, generated key, cipher key or plaintext of an unauthentic ciphertext can be read in memory that is no longer used. This fails: replacing a key by one of another length, generating a key, every encryption and decryption with attributes, every authenticated encryption object and every decryption with a wrong tag leave them there; with what an encryption leaves, its ciphertext can be decrypted.", "quantifier": "all byte strings with their capacities, keys, growth rules of the vector, group elements, messages, schemes, contexts, policies and attribute lists", "why_tests_cant": "Released memory cannot be inspected by a test without undefined behaviour, and what it holds depends on the capacities that the C++ library chooses.", "anchors": ["include/lsss/zbytestring.h: zeroize, operator=, insertFirstByte, fillBuffer", "src/abe/zsymkey.cpp: ~OpenABESymKey, setSymmetricKey, generateSymmetricKey, hashToSymmetricKey, OpenABESymKeyAuthEnc, decrypt", "src/abe/zkdf.cpp: ComputeKDF2", "src/abe/zpairing.cpp: hashFromBytes", "src/abe/zcontextabe.cpp: encrypt, decrypt"]}
{"id": "C131", "title": "A decryption that reports no error returns what was encrypted", "statement": "The answer of a decryption depends only on the components that belong to the scheme and on the masked message. Wanted: if a ciphertext was altered, or belongs to another authority, decryption reports an error. This fails: the header can be replaced without effect, whoever knows the plaintext can change it to any other that is not longer, attributes can be taken off a key-policy ciphertext, and keys of another authority give some other plaintext without an error.", "quantifier": "all ciphertexts and alterations, both schemes, authorities, contexts, keys, random values, policies and attribute lists, plaintexts", "why_tests_cant": "Alterations range over all byte strings and tests only alter a few; that a wrong plaintext comes out without an error is invisible to round-trip tests.", "anchors": ["src/abe/zcontextabe.cpp: encrypt, decrypt", "schemes/zcontextcpwaters.cpp: decryptKEM", "schemes/zcontextkpgpsw.cpp: decryptKEM", "src/abe/zpairing.cpp: hashFromBytes", "include/lsss/zbytestring.h: operator^="]}
{"id": "C132", "title": "A ciphertext tells nothing about its message but the length", "statement": "With a random hash function and a fixed session key, every ciphertext is as likely for one message of up to 8192 bytes as for any other of the same length, and every masked message is possible for each of them. Wanted: the same for messages of all lengths. This fails for every length above 8192: there are two messages of this length whose ciphertexts can always be told apart by two of their bytes.", "quantifier": "all encapsulations (schemes, contexts, policies, attribute lists, random values), all pairs of messages of the same length, all ciphertexts", "why_tests_cant": "It is about the distribution of ciphertexts over all hash functions, which a test cannot enumerate.", "anchors": ["src/abe/zcontextabe.cpp: encrypt", "src/abe/zpairing.cpp: hashFromBytes", "schemes/zcontextcpwaters.cpp: encryptKEM", "schemes/zcontextkpgpsw.cpp: encryptKEM"]}
{"id": "C133", "title": "What can be seen of work on secret bytes depends only on their lengths", "statement": "Of comparing, masking, wiping, deriving and storing keys, the branches taken, the places read and written and the lengths handed to the hash functions depend only on the lengths of the byte strings and, for comparisons, on the answer. A comparison of strings of equal length reads all of both. Wanted: also the sizes of exported keys do not depend on the secrets in them. This fails: a master secret key is shorter if its exponent is small.", "quantifier": "all byte strings, lengths, hash and MAC functions with digests of fixed length, all key-policy setups and codecs", "why_tests_cant": "Traces must agree for all pairs of secrets of a length; a timing test samples a few pairs and is noisy.", "anchors": ["include/lsss/zbytestring.h: operator==, operator^=, zeroize", "src/lsss/zobject.cpp: OpenABEZeroize", "src/abe/zpairing.cpp: hashFromBytes", "src/abe/zkdf.cpp: DeriveKey, ComputeKDF2, ComputeHKDF", "src/abe/zsymkey.cpp: setSymmetricKey", "src/lsss/zelement_bp.cpp: ZP::serialize"]}
{"id": "C134", "title": "Sizes of masks and of derived keys are computed exactly", "statement": "The number of hash blocks, a quotient in double rounded up and stored in an int, is the least number that suffices, for all sizes of 32 bits. Masks are those of the model for messages that leave room on the stack. Wanted: for messages of all lengths, masking is defined and every byte has its own byte of the mask. This fails: the mask is an array on the stack, so that messages of 8 MiB end the process, and the length is cut to 32 bits, so that the mask of a message of 4 GiB and one byte is a single byte, repeated, and for exactly 4 GiB there is none.", "quantifier": "all lengths, messages, keys, hash functions, stack sizes, and all ways of rounding to nearest", "why_tests_cant": "Rounding errors would show at single operands out of 2^64 pairs, and no test encrypts gigabytes.", "anchors": ["src/abe/zpairing.cpp: hashFromBytes", "src/abe/zkdf.cpp: DeriveKey", "src/abe/zcontextabe.cpp: encrypt, decrypt", "include/lsss/zbytestring.h: operator^="]}
{"id": "C135", "title": "Session keys of the disabled chosen-ciphertext transform can be recovered", "statement": "The transform in zcontextcca.cpp stands between #if 0 and #endif; the statement is about what it would do. Encapsulation puts r and K into a ciphertext of the CPA wrapper, which authorised keys open to the two. Wanted: decapsulation then returns K. It returns no key for any ciphertext whatsoever, since its re-encryption check compares byte strings with a comparison that is never true; the decryption on top returns no plaintext.", "quantifier": "all ciphertexts, honest or not, keys, contexts, random values of both encryptions, pairings, hash functions and ciphers", "why_tests_cant": "The code is not compiled, so no test reaches it; that no input passes the check is a statement about all ciphertexts.", "anchors": ["src/abe/zcontextcca.cpp: OpenABEContextGenericCCA::encryptKEM, decryptKEM, OpenABEContextSchemeCCA::encrypt, decrypt", "src/lsss/zcontainer.cpp: operator==", "include/lsss/zobject.h: isEqual"]}
{"id": "C136", "title": "A context can be used by several threads at once", "statement": "For a context of either scheme and any number of threads with any calls, every interleaving of single accesses to the two key maps and the pairing object is free of data races, and the calls return what they return one after the other. This holds for encryptions and decryptions with keys that have entries, where finding an entry with operator[] only reads. It fails otherwise: lookups of ids without an entry add one, by the standard every lookup counts as a change, generation of keys and parameters writes without a lock, and two generations of parameters under the same ids can both succeed and leave the public parameters of one with the master secret of the other.", "quantifier": "All contexts, groups, parameters, inputs, numbers of threads, sequences of calls, and interleavings; both readings of map::operator[] (change by the standard, read in common implementations).", "why_tests_cant": "Whether lookups race depends on the schedule and on whether the id is present; a test sees one schedule, and an inserted null entry or mixed master keys show up much later.", "anchors": ["src/abe/zkeystore.cpp:getPublicKey", "src/abe/zkeystore.cpp:getSecretKey", "src/abe/zkeystore.cpp:addKey", "src/abe/zcontextabe.cpp:initializeCurve", "src/abe/zcontextcpwaters.cpp:generateParams", "src/abe/zcontextkpgpsw.cpp:generateParams"]}
{"id": "C137", "title": "Authenticated encryption handles messages of all lengths", "statement": "With the lengths as the code computes them (int), what a key handle encrypts, a handle with the same key and associated data decrypts, or an error is reported; and associated data of all lengths is authenticated. This holds for messages up to 2^31 - 2 bytes and associated data below 2^31 bytes. It fails beyond: messages of 2^31 - 1 bytes are undefined, all messages of 2 GiB to 4 GiB get one and the same ciphertext, of longer ones only length modulo 2^32 many bytes are encrypted and decrypt as authentic, and associated data of 2 GiB to 4 GiB is not authenticated. Blocks of streams have to fit on the stack.", "quantifier": "all messages, associated data, keys, IVs, key streams, tags, stack sizes and states of streams", "why_tests_cant": "No test encrypts gigabytes, and nothing reports an error.", "anchors": ["src/abe/zsymkey.cpp: OpenABESymKeyAuthEnc::encrypt, decrypt, OpenABESymKeyAuthEncStream::encryptUpdate, decryptUpdate", "src/abe/zsymcrypto.cpp: OpenABESymKeyHandle::encrypt, decrypt", "include/lsss/zconstants.h: MALLOC_CHECK_OUT_OF_MEMORY"]}
{"id": "C138", "title": "Recovery uses as few attributes as possible, and checkIfSatisfied reports how many", "statement": "The comment of the scan promises the number of leaves required to satisfy the subtree. The rows that recovery uses are always one way of satisfying the policy. Wanted: no smaller part of the attributes satisfies it, and the number reported by checkIfSatisfied is that of the rows. OR gates order their subnodes by the number of direct subnodes instead; so the number of rows is least for all attributes and sorts exactly for policies in which that order agrees with the number of leaves. It fails otherwise: for every n there is a policy with n + 3 rows where 2 suffice, one for which 2 is reported and n + 2 are needed, and two policies that the reported numbers put in the wrong order.", "quantifier": "all policies with AND and OR gates, attribute lists, sizes, and orders that std::sort may give to equal entries", "why_tests_cant": "The least number is a minimum over all parts of the attributes; results are correct with any number of rows, so tests of decryption cannot notice.", "anchors": ["src/lsss/zlsss.cpp: iterativeScanTree, determineIfNodeShouldBeMarked, checkIfSatisfied, recoverCoefficients, less_than"]}
{"id": "C139", "title": "Symmetric keys can be kept in a keystore beside keys of the schemes", "statement": "For every history of storing, loading, looking up, deleting and exporting symmetric keys in a keystore that also holds public and secret keys of schemes, a lookup gives the symmetric key that was last stored or loaded under the id and not deleted since, and null if there is none. That holds unless a secret key of a scheme has the id: then the unchecked cast is undefined, exactly in this case. Wanted further: deletion is confined to symmetric keys and reports missing ones, and an exported key can be loaded. Deletion never reports an error and removes public parameters and scheme keys with the id; export gives the public key with the id or bytes without the key data; loading an empty blob reports success.", "quantifier": "all histories of calls, ids, keys of both kinds, blobs and random bytes", "why_tests_cant": "Wrong kinds of keys under an id need particular histories; the undefined cast often seems to work.", "anchors": ["src/abe/zcontextske.cpp: OpenABE_storeSymmetricKey, OpenABE_loadSymmetricKey, OpenABE_getSymmetricKey, OpenABE_deleteSymmetricKey, OpenABE_exportKey", "src/abe/zkeystore.cpp: addKey, getSecretKey, getKey, deleteKey, exportKeyToBytes", "include/abe/zsymkey.h: OpenABESymKey::exportKeyToBytes"]}
{"id": "C140", "title": "What was read from any bytes can be written and read again", "statement": "Bytes that are accepted as a container, ciphertext or key, wherever they come from, give an object that can be exported, the exported bytes are read as the same object and the next export gives the same bytes; objects with the same exported bytes are the same. Wanted as well: only bytes that the library writes are accepted. The first fails exactly for objects with null pointers or empty names and for empty ones, all of which can be made by accepted bytes; the second fails for every accepted input.", "quantifier": "all byte strings up to 4 GiB divided by the element size, all codecs, contexts and ids", "why_tests_cant": "Concerns all byte strings that the reader accepts, not only those that the writer makes; the failing ones are never written by the library.", "anchors": ["src/abe/zcontainer.cpp: serialize, deserialize, deserializeElement, setComponent", "src/abe/zciphertext.cpp: exportToBytes, loadFromBytes", "src/abe/zkeystore.cpp: constructKeyFromBytes, exportKeyToBytes", "include/lsss/zbytestring.h: smartPack, smartUnpack, unpack"]}
{"id": "C141", "title": "Issued keys and ciphertexts keep working whatever else the program does", "statement": "After parameters were generated, a key can be issued at any later time, a message encrypted at any later time before or after it, and the decryption at any later time returns the message exactly if the policy is true for the attribute list, and otherwise an error and nothing. In between the program may make any calls on the same context: further parameters and keys, encryptions, decryptions with any key (also failing ones that leave null entries behind), exports, loads of arbitrary bytes and deletions, as long as they do not delete, load or generate a key under the ids of the round trip and do not write its ciphertext object. The condition is needed: generating a key under the id of an issued key replaces it silently and the decryption that succeeded before fails.", "quantifier": "all worlds (any contents of the keystore), all three lists of intermediate calls of any length, all ids, policies and lists given by their texts, messages, slots, randomness, both schemes, both orders", "why_tests_cant": "A test runs one sequence of calls; the statement is about every interleaving with every other use of the context, of any length", "anchors": ["src/abe/zcontextabe.cpp: generateParams, keygen, encrypt, decrypt, exportKey, loadKey, deleteKey", "src/abe/zkeystore.cpp: addKey, deleteKey, validateNewParamsID", "src/abe/zcontainer.cpp: getComponent"]}
{"id": "C142", "title": "Decryption needs room on the stack for each row it uses, and for nothing else that depends on the policy", "statement": "multi_pairing copies its factors into two arrays on the stack whose length is the number of rows that recovery returned. For every key, every ciphertext and every size of the stack, decryption with these arrays has the outcome it has without, or is undefined because rows * (sizeof(g1_t) + sizeof(g2_t)) is more than the stack. A ciphertext that decrypts without limit decrypts on exactly the stacks with that room. The rows of an honest run are one way to satisfy the policy, eleven pairs for each byte of the policy are always enough, and no fixed stack is: with the policy 'a and a and ... and a' a ciphertext anybody can make is undefined to decrypt with an honest key on any given stack.", "quantifier": "all keys, ciphertexts, contexts, policies, attribute lists, element sizes and stack sizes, for both schemes", "why_tests_cant": "A test decrypts with some policies on the stack of the machine it runs on. It does not reach the policy that overflows it, cannot tell an overflow that happened to be harmless from room enough, and cannot show that no other part of the input matters.", "anchors": ["src/abe/zpairing.cpp: OpenABEPairing::multi_pairing", "schemes/zcontextcpwaters.cpp: OpenABEContextCPWaters::decryptKEM", "schemes/zcontextkpgpsw.cpp: OpenABEContextKPGPSW::decryptKEM", "src/lsss/zlsss.cpp: OpenABELSSS::recoverCoefficients"]}
{"id": "C143", "title": "Exactly which policies lose rows, which can be copied, and which names match themselves", "statement": "For every policy text: two rows of the sharing get the same label exactly if some attribute occurs at least twice and its name followed by % and a number below that count occurs as an attribute exactly once; sharing leaves one row per different label. A copy of the policy object shares secrets like the original exactly if no attribute occurs twice, otherwise sharing with the copy is undefined; an assigned policy shares with one row per different attribute. A name in a list satisfies the policy that consists of the same name exactly if no part between colons is empty, or it is one part followed by one colon.", "quantifier": "all policy texts, secrets, random values, names, and orders that std::sort may give", "why_tests_cant": "Exact conditions over all texts; tests show single texts on either side of the line.", "anchors": ["src/lsss/zlsss.cpp: shareSecret, iterativeShareSecret, makeUniqueLabel", "src/lsss/zpolicy.cpp: OpenABEPolicy copy constructor, operator=, setDuplicateInfo", "src/lsss/zattributelist.cpp: addAttribute"]}
{"id": "C144", "title": "Exactly which values survive the encoders of byte strings, integers, scheme identifiers and inputs", "statement": "pack followed by unpack gives the payload back exactly below 2^32 bytes, and otherwise its first length mod 2^32 bytes; smartPack exactly for non-empty payloads below 2^32 bytes; serialize and deserialize of a byte string, operator+ of a byte string and a text, OpenABEUInteger, the names of the schemes and the copy of a function input each give the original back exactly under the stated condition.", "quantifier": "all byte strings, prefixes, suffixes, integers, identifiers and inputs", "why_tests_cant": "Payloads of 4 GiB; exact conditions over all values.", "anchors": ["include/lsss/zbytestring.h: pack, unpack, smartPack, smartUnpack, serialize, deserialize, operator+", "include/lsss/zinteger.h: OpenABEUInteger::serialize, deserialize", "utils/utils.cpp: OpenABE_convertSchemeIDToString, OpenABE_convertStringToSchemeID", "src/lsss/zfunctioninput.cpp: copyFunctionInput"]}
{"id": "C145", "title": "Exactly which earlier calls change what an object answers", "statement": "A sharing object that was used before for any sequence of sharings and recoveries shares a secret like a new one exactly if the policy repeats an attribute, or no attribute of it is repeated in the last policy with repeated attributes that the object has seen; recovery always gives the same answer and the same coefficients exactly under that condition on the rows it uses. Several recoveries on one policy object are all right exactly if its root is an attribute or the formula has the same value for all callers. checkSecretKey of a keystore answers yes after a history exactly if a secret key was added or looked for in vain since the last deletion, as defined by a small state machine. Looking up a component leaves a container unchanged exactly if there is an entry of its name.", "quantifier": "all histories of uses and calls, policy texts, attribute lists, secrets, random values, ids, keys and containers", "why_tests_cant": "Histories are unbounded, and the effects show only in particular combinations of earlier and later policies or ids.", "anchors": ["src/lsss/zlsss.cpp: shareSecret, recoverCoefficients, makeUniqueLabel, iterativeScanTree", "src/abe/zkeystore.cpp: checkSecretKey, getKey, getSecretKey, deleteKey, validateNewParamsID", "src/abe/zcontainer.cpp: getComponent"]}
{"id": "C146", "title": "The outcome of reading any text as a policy or as a list", "statement": "Reading the text of a formula gives a policy exactly if none of its conditions contains a comparison that all 32-bit numbers meet or that none meets, and has undefined behaviour exactly if one does; numbers that are written out never lead to such a comparison, only dates can. Any other text gives the null pointer, or, only if it contains a date with the day number 0 or 2^32 - 1, possibly undefined behaviour. Reading any text as a list of attributes always returns, and gives a list exactly if the tokens are one and do not end with two bars, whatever the calendar says about its dates. No exception leaves either function.", "quantifier": "all byte strings, formulas and calendars", "why_tests_cant": "The texts are unbounded and the calendar depends on the machine; which text reaches the loop that does not end its search depends on the whole course of the parser.", "anchors": ["src/lsss/zdriver.cpp: bit_marker_list, cmp_policy, validate_date, set_date_in_policy", "src/lsss/zparser.tab.cc: Parser::parse", "src/lsss/zpolicy.cpp: createPolicyTree", "src/lsss/zattributelist.cpp: createAttributeList"]}
{"id": "C147", "title": "Exactly which byte strings the symmetric objects decrypt, and what happens to the others", "statement": "For a key of 32 bytes and messages below 2 GiB: a key handle decrypts a byte string exactly if its decoded form begins with three fields (a marker for the size of the length, the length, the content) of which the first is not empty and the third is the tag of the second under the first and the authentication data; the result is the second field with the key stream. It raises std::out_of_range exactly if there are not three fields, has undefined behaviour exactly if the first field is empty and the third has 16 bytes, and raises a runtime error otherwise. An encryption object behaves in the same way for two, three or four fields, and also raises a runtime error if its own authentication data and the fourth field are both present and different. Bytes behind the third field do not matter to a key handle that does not decode.", "quantifier": "all keys of 32 bytes, authentication data, byte strings and ciphers", "why_tests_cant": "The set of accepted strings is infinite and contains many that encryption never writes: other lengths of the length, other markers, and bytes behind the last field. Tests try strings that encryption wrote and a few changes of them.", "anchors": ["src/abe/zsymcrypto.cpp: OpenABESymKeyHandle::decrypt, SymKeyEncHandler::decrypt", "include/lsss/zbytestring.h: smartUnpack", "src/abe/zsymkey.cpp: OpenABESymKeyAuthEnc::decrypt"]}
{"id": "C148", "title": "Exactly which bytes are read as containers, ciphertexts and keys, and what they are read as", "statement": "A container is read exactly from one or more names with values, each in a field, to the last byte, where each value is one of a stated grammar (integer, exponent, element of one of the three groups, byte string, policy text, attribute list, or one of two tags that store nothing); the component that each value stands for is the stated one; behind a value inside its field further bytes are ignored. Under a name the component of its last value that stores one is found, and a name without such a value keeps what it had. Reading a container is undefined exactly if the first value that stores nothing readable is an exponent that is shorter than its length says, bytes the group library does not define, or the text of a policy that is undefined, and ends the program exactly if it is an element of a wrong size or one with which the group library does so. A ciphertext is read exactly from a field with version (at most 170), a scheme number and 16 bytes, and a field with a container that is not empty; bytes behind these are ignored and the version is kept. A key is made exactly from two contents with lengths of four bytes, the first of which is version (at most 170), a scheme number, 16 bytes and the identifier; the version is not kept; out_of_range is thrown exactly if a content is missing.", "quantifier": "all byte strings, all containers, ciphertexts and keys read into, all group libraries (read functions and sizes) and all implementations of mktime", "why_tests_cant": "the set of accepted byte strings is infinite and is the complement of what a test can list; whether two different byte strings are read as the same object depends on the whole grammar", "anchors": ["src/abe/zcontainer.cpp: deserialize, deserializeElement", "src/abe/zciphertext.cpp: loadFromBytes", "src/abe/zkeystore.cpp: constructKeyFromBytes"]}
{"id": "C149", "title": "Exactly what the keystore and the key manager answer after any history", "statement": "After every history of calls each answer of the keystore is that of two maps and a set of reported names: a name is reported by checkSecretKey exactly if some call made it so (adding a secret key, looking it up as one, or looking it up, validating or deleting it while there is no public key of that name) and no later deletion found a key of that name. In the key manager: a search returns the empty id exactly if no key of the user opens the input, or (without isEfficient) if one with the empty id does; otherwise it returns the least such id, or with isEfficient one of least cost. After a store, whatever its outcome, everybody reads under other ids what was there before, and under its id the new key if the store succeeded and the reader is its user, and nothing otherwise. A store without success changes nothing exactly if nothing was stored under its id. The ids of keys stored with one prefix are different exactly if there are at most twenty.", "quantifier": "all histories of calls, all names, users, keys, inputs, times and orders of equally good keys", "why_tests_cant": "the answers depend on the whole history; tests fix a few short ones", "anchors": ["src/abe/zkeystore.cpp: getKey, getSecretKey, checkSecretKey, deleteKey, validateNewParamsID", "src/abe/zkeymgr.cpp: storeWithKeyIDCommand, storeWithKeyPrefixCommand, searchKeyCommand, filterKeys"]}
{"id": "C150", "title": "Exactly what the comparisons of containers, lists and symmetric keys answer", "statement": "Comparing containers gives yes exactly if the second is not empty and under every name of the first both have components that are alike (equal integers with widths, equal exponents or elements, or any two lists of which the first is not empty); no exactly if the second is not empty, every name of the first can be compared and some components are not alike (two byte strings never are); it is undefined exactly if the second is empty or, at the first name in the order of bytes that cannot be compared, a list without attributes meets a list; otherwise element-not-found is raised, and there are no other outcomes. So a container equals itself exactly if it has components and none is a byte string, an empty list or a null pointer. The comparison of attribute lists is undefined for an empty first list and otherwise yes. Symmetric keys compare equal exactly if version and algorithm are equal and so are the identifiers written after each other.", "quantifier": "all containers, attribute lists and symmetric keys", "why_tests_cant": "pairs of containers are unbounded; the cases with missing names, byte strings and empty lists combine", "anchors": ["src/abe/zcontainer.cpp: operator==", "src/lsss/zattributelist.cpp: isEqual", "src/abe/zsymkey.cpp: operator=="]}
{"id": "C151", "title": "Exactly what stream objects answer", "statement": "For every key and every sequence of calls on a new stream object, in whatever order, the codes, errors and bytes given out by all calls are those of a short specification that records the IV, the tag, the associated data and the pieces passed since the last start and answers in terms of the encryption and the tag of the whole message. A sequence is undefined exactly if something is started, while nothing is running, with a key of less than 32 bytes or an empty IV. So, whatever misplaced calls came before or in between: a tag that is given out is the tag of exactly the bytes given out since the encryption was started, which are the encryption of exactly the bytes passed since then; and a decryption is reported as correct only if it was started with a tag of 1 to 16 bytes that begins the tag of exactly the bytes passed since then.", "quantifier": "all keys and all finite sequences of the eight calls with all arguments", "why_tests_cant": "the orders of calls, including misplaced ones, and the ways to cut a message into pieces are unbounded", "anchors": ["src/abe/zsymkey.cpp: OpenABESymKeyAuthEncStream::initAddAuthData", "src/abe/zsymkey.cpp: OpenABESymKeyAuthEncStream::setAddAuthData", "src/abe/zsymkey.cpp: OpenABESymKeyAuthEncStream::encryptInit", "src/abe/zsymkey.cpp: OpenABESymKeyAuthEncStream::encryptUpdate", "src/abe/zsymkey.cpp: OpenABESymKeyAuthEncStream::encryptFinalize", "src/abe/zsymkey.cpp: OpenABESymKeyAuthEncStream::decryptInit", "src/abe/zsymkey.cpp: OpenABESymKeyAuthEncStream::decryptUpdate", "src/abe/zsymkey.cpp: OpenABESymKeyAuthEncStream::decryptFinalize"]}
{"id": "C152", "title": "Exactly what stream contexts answer", "statement": "For every sequence of calls on a new stream context (generating, exporting, loading and deleting keys, encrypting and decrypting), the codes, exceptions and bytes given out by all calls are those of a short specification: a map of keys, a set of names that count as taken, and what is running. A sequence is undefined exactly if something is started under a name with a key of less than 32 bytes, or with an empty IV under a name with a key. Nothing a context ever answers depends on the tags it is given. The bytes that load as a key are exactly none at all, which give an empty key, and two fields of which the second has 16 or 32 bytes and the first has less than 18 bytes or names one of the three symmetric algorithms and an identifier.", "quantifier": "all finite sequences of the ten calls with all arguments; all byte strings loaded as keys", "why_tests_cant": "histories and key blobs are unbounded; that tags are ignored concerns pairs of histories", "anchors": ["src/abe/zcontextske.cpp: OpenABEContextSchemeStreamSKE", "src/abe/zsymkey.cpp: OpenABESymKey::loadKeyFromBytes", "src/abe/zkeystore.cpp: OpenABEKeystore"]}
{"id": "C153", "title": "Exactly what a container answers after any calls", "statement": "For every sequence of calls on a new container (setting, looking up with and without a type, deleting, counting, listing and writing), every answer follows from the calls that mention each name. An object is found under a name exactly if it was the last thing set there and the name was not deleted since; a typed lookup returns it if it has the type and a null pointer if not. Writing is undefined exactly if some name was looked up when nothing was there, or given a policy, and neither set nor deleted since; otherwise it gives the names and the bytes of their objects in the order of the names. Setting is undefined exactly for a null pointer.", "quantifier": "all finite sequences of calls with all names and objects, all codecs", "why_tests_cant": "histories, names and objects are unbounded", "anchors": ["src/abe/zcontainer.cpp: OpenABEContainer::setComponent, getComponent, deleteComponent, numComponents, serialize, getKeys", "include/abe/zcontainer.h: getZP, getG1, getG2, getGT, getByteString, getInteger"]}
{"id": "C154", "title": "Expressions over ZP objects: exactly when they are defined and what they are worth", "statement": "For every prime order and every expression, of any size, made of ZP objects with this order or without one by the operators +, -, *, /, unary -, power and multInverse: it returns exactly if every binary operator has an operand with an order, negation and power have one, no divisor and nothing that is inverted is zero in the field, and no exponent is negative. If it returns, the result stands for the value of the expression in the field, except that inverting does nothing to what has no order; it is reduced unless the expression is just an object. Two such computed results with an order compare equal exactly if their values are equal.", "quantifier": "all expression trees, all integers in the objects, all primes", "why_tests_cant": "expressions and values are unbounded", "anchors": ["src/lsss/zelement_bp.cpp: ZP::operator+, operator-, operator*, operator/, multInverse, power, operator=="]}
{"id": "C155", "title": "What every written date means", "statement": "In every POSIX time zone with a fixed offset, every date that can be written (any word for the month, any day below 2^31, any year up to 2000000000) stands for the number of seconds from 1970 to the day it counts to, modulo 2^64, divided by the seconds of a day, modulo 2^32. Days count on from the first of the month; a word that is not a month means December of the year before. Dates from 1970 on stand for their day number. Dates before 1970, which a test without effect was meant to reject, stand for a day more than a thousand million days away: each of them counts as later than every date from 1970 to day 1157000000, while among themselves they keep their order. A condition on a date in a policy holds exactly if the list has a date of the same prefix whose number compares accordingly.", "quantifier": "all words, day and year numbers in this range, all fixed offsets within a day, all policies and lists", "why_tests_cant": "the dates are too many to try, and the result depends on the time zone of the machine", "anchors": ["src/lsss/zdriver.cpp: get_month, validate_date, set_date_in_policy, DAY_IN_SECS"]}
{"id": "C156", "title": "Exactly what addToRootOfInput returns, for every added text and every sequence of additions", "statement": "For every accepted policy text s and every text r, addToRootOfInput(AND or OR, r) returns a policy exactly if s contains no NUL and no byte above 127 and r is itself an accepted policy text. With OR the result is satisfied exactly by the attributes that satisfy the policy or satisfy r. With AND only the first alternative of r becomes a conjunct: the result is satisfied exactly by the attributes that satisfy the policy and the first alternative, or any further alternative of r; so all of r is a conjunct if r has no `or` outside of parentheses. Attribute names added one after the other, any number of times and in any order, change the truth of the policy exactly as the additions say.", "quantifier": "all accepted policy texts, all added texts, all sequences of additions, all attribute sets", "why_tests_cant": "the added text is spliced into the policy text and read again, so the result depends on precedence, parentheses, control bytes and everything that was added before", "anchors": ["src/lsss/zpolicy.cpp: addToRootOfInput", "src/lsss/zparser.yy: policy", "src/lsss/zdriver.cpp: kof2_tree, leaf_node"]}
{"id": "C157", "title": "Which differences between two texts do not matter", "statement": "Two texts with the same tokens before the first NUL or byte above 127 give the same policy and the same attribute list (apart from the remembered text), and if one is rejected so is the other. So whatever follows such a byte does not matter, blanks before and behind the text do not matter, nor the number and kind of blanks at any place that has one, nor blanks next to parentheses and bars. Between names, and inside a comparison sign, the blank matters. A line end is a token: a text with one before the first NUL or byte above 127 is neither a policy nor a list.", "quantifier": "all texts, all positions in them, all runs of blanks", "why_tests_cant": "the layouts of a text are infinitely many and the scanner is a generated table", "anchors": ["src/lsss/zscanner.ll", "src/lsss/zparser.yy", "src/lsss/zpolicy.cpp: createPolicyTree", "src/lsss/zattributelist.cpp: createAttributeList"]}
{"id": "C158", "title": "Exactly which printed policies can be read, and what they are read as", "statement": "For every text accepted as a policy: the printed form of its tree is accepted as a policy if and only if the text contains no condition on a number or a date and no attribute that is [0] or [1] followed by two or more colons. Otherwise the printed form gives the null pointer; it never gives an exception or undefined behaviour. If it is accepted, the tree read from it is satisfied by exactly the same attribute lists as the original and prints to the same bytes, so printing and reading again changes nothing more.", "quantifier": "all byte strings accepted as policies (any names, colons, nesting, conditions and dates), all local-time functions, all attribute lists", "why_tests_cant": "Names may contain colons in any number and place, which printing removes; a test fixes a few names. The exact set of texts that survive can only be stated and proved over all words the scanner accepts.", "anchors": ["src/lsss/zpolicy.cpp: OpenABETreeNode::toString, createPolicyTree", "src/lsss/zdriver.cpp: Driver::check_attribute, Driver::leaf_node, Driver::bit_marker", "src/lsss/zscanner.ll: rule 2 (keywords, expint)"]}
{"id": "C159", "title": "Exactly which attribute lists built from strings can be written and read back", "statement": "For every list built by the constructor from strings without '=': the compact text is read back as the same set of attributes if and only if at least one string is not empty and every non-empty string is a name (a word the scanner delivers as one attribute). A compact text of such a list that is read at all gives only names, so a string that is not a name is lost. Two lists built from names have the same compact text exactly when they have the same strings in the same order.", "quantifier": "all counts, all lists of byte strings without '=' (any length and content), all local-time functions", "why_tests_cant": "The constructor takes arbitrary bytes as an attribute: blanks, bars, keywords, NUL and markers of numeric attributes included. Which of these survive transport is a statement about all byte strings.", "anchors": ["src/lsss/zattributelist.cpp: OpenABEAttributeList, addAttribute, toCompactString", "src/lsss/zattributelist.cpp: createAttributeList", "src/lsss/zscanner.ll"]}
{"id": "C160", "title": "What a list means that gives a number several values", "statement": "For every accepted attribute list, also one that contradicts itself, and every policy, the answer is true exactly when the formula is true of the items that stay. An item stays unless an item that stayed before uses the same name and one of the two is a plain attribute, or both are dates. An upper bound is compared with the bits that all values of the number have in common, a lower bound with the bits that any value has, and the bits of an equation may come from different values. With one value this is the ordinary meaning, with none of the right width no condition holds, more values never hurt, and a value together with its complement satisfies every equation and every bound.", "quantifier": "every policy text with its formula, every attribute-list text with its items, every list of values and every condition", "why_tests_cant": "which combinations of values satisfy which bounds depends on every bit of every value; tests use lists with one value", "anchors": ["src/lsss/zdriver.cpp: Driver::attr_num, Driver::set_date_in_attrlist, Driver::parse_attribute, Driver::bit_marker_list, Driver::eq_policy"]}
{"id": "C161", "title": "Which keys open which ciphertexts, for all lists", "statement": "For every policy text and every accepted list text, also one that contradicts itself, a key for the list opens a message encrypted for the policy (and the other way round in the key-policy scheme) if the formula is true of what stays of the list, and otherwise decryption fails with an empty output. A list that gives a number a value and the complement of that value opens every policy that has only conditions on this number with this width and with bounds below the largest value, also policies that no value satisfies.", "quantifier": "every policy text, every list text, every message, all random values, every context with the keys", "why_tests_cant": "one list is compared with all policies over all numbers, and keys and ciphertexts go through parsing, sharing, hashing and pairing", "anchors": ["src/lsss/zdriver.cpp: Driver::attr_num, Driver::eq_policy", "src/abe/zcontextcpwaters.cpp: encryptKEM, decryptKEM, generateDecryptionKey", "src/abe/zcontextkpgpsw.cpp: encryptKEM, decryptKEM, generateDecryptionKey"]}
{"id": "C162", "title": "What DeriveKey answers for all arguments and all hash lengths", "statement": "For every digest of 32 bytes, key derivation object (prefix, hash length, maximal input), secret, other information and bit length: DeriveKey throws only OpenABE_ERROR_INVALID_LENGTH, exactly if the hash length is not 0 and counter, prefix, secret and information are longer than the maximal input; it returns a key exactly if the hash length is not 0, the input is not too long, the bit length rounded up to a multiple of the hash length is below 2^31, and no bits are asked for or the hash length is at least 31; the key then has a byte per full 8 bits, byte j being byte j mod hashLen of block j / hashLen + 1 of the concatenation KDF, or 0 if that place is beyond the digest; in all remaining cases the behaviour is undefined (division by 0, an array size that is not an int, or a digest written beyond the array).", "quantifier": "all digests, all key derivation objects, all secrets, all other information, all 32-bit bit lengths", "why_tests_cant": "Tests use the default hash length 256; that 31 is the least length for which nothing is written beyond the array, and that no bit length is safe below it except 0, needs all lengths.", "anchors": ["src/abe/zkdf.cpp: OpenABEKDF::DeriveKey", "include/abe/zkdf.h: OpenABEKDF"]}
{"id": "C163", "title": "What a symmetric key handle answers for messages and authentication data of all lengths", "statement": "For every key, authentication data and message, of any lengths, with the int arithmetic of the code: let n be the message length modulo 2^32. If n < 2^31 - 1, encrypt returns IV, encryption of the first n bytes and its tag over the counted authentication data (the first length mod 2^32 bytes, or none if that is not an int). If n = 2^31 - 1, or n is larger and the authentication data has more than 17 bytes modulo 2^32, encrypt is undefined. Otherwise it returns as many zero bytes as the authentication data has, with the tag of no bytes. A message comes back from decrypt with the same handle exactly if it has 1 to 2^31 - 2 bytes. What comes back in all other cases is exactly the counted part of the message if it is not empty, or a decryption of at most 17 zeros if their tag is that of no bytes.", "quantifier": "all keys, authentication data, IVs of 16 bytes and messages, with and without Base64, for every GCM whose tag has 16 bytes", "why_tests_cant": "Messages of 2 and 4 GiB and their combination with authentication data of such lengths are not tested; the exact set of messages that come back needs all lengths.", "anchors": ["src/abe/zsymkey.cpp: OpenABESymKeyAuthEnc::encrypt, decrypt", "src/abe/zsymcrypto.cpp: OpenABESymKeyHandle::encrypt, decrypt"]}
{"id": "C164", "title": "Which ids keys get that are stored with a prefix, in all histories", "statement": "In every history of commands on a key manager (stores with and without prefix, successful or not, counts, passphrases, searches, deletions, by any users): the counter of a user is the number of ids that user was given by stores with a prefix, modulo 20; every id that was given is the prefix followed by the decimal number of ids the user was given before, modulo 20; two ids with the same prefix, also of different users, are equal exactly if these numbers agree modulo 20; so there are at most 20 ids per prefix for all users together.", "quantifier": "all histories of commands, all users, prefixes, key bytes, expiry dates and results", "why_tests_cant": "Collisions need more than 20 stores of one user, or several users with one prefix; that they are exactly the stated ones is a statement about all histories.", "anchors": ["src/abe/zkeymgr.cpp: storeWithKeyPrefixCommand, getUserKeyCount", "include/abe/zkeymgr.h: MAX_KEYS_PER_USER"]}
{"id": "C165", "title": "What a release build of the two schemes answers", "statement": "With the assertions compiled out, decapsulation and decryption answer exactly what the checked build answers, for every keystore, key and ciphertext. Encapsulation and key generation answer the same when they share no secret or share it under a single attribute. Under any other policy the release build never returns a ciphertext or makes a key: wherever the checked build succeeds the release build is undefined, and it agrees with the checked build only on failures before the sharing.", "quantifier": "all environments, both schemes, all contexts, keystores, inputs, policies, attributes, lengths, random draws, keys and ciphertexts", "why_tests_cant": "Tests run one build; the statement relates two builds over all inputs and policies.", "anchors": ["src/lsss/zlsss.cpp: OpenABELSSS::iterativeShareSecret, performSecretSharing, performCoefficientRecovery", "src/abe/zcontextcpwaters.cpp: generateDecryptionKey, encryptKEM, decryptKEM", "src/abe/zcontextkpgpsw.cpp: generateDecryptionKey, encryptKEM, decryptKEM", "src/abe/zcontextabe.cpp: encrypt, decrypt"]}
{"id": "C166", "title": "Library state with state contexts after any calls", "statement": "After any sequence of initialisations, shutdowns and calls on any number of OpenABEStateContext objects: creating a pairing object raises an error iff the library is not initialised or was shut down since, is undefined iff the library is initialised but the last call that touched the math library failed, and succeeds otherwise. Initialising fails iff the library is up; calls on a context are undefined iff it does not exist. If the math library never fails, pairing objects can be made iff the library is up. Leaving a context initialises the math library again, even after the whole library was shut down.", "quantifier": "all finite call sequences, all numbers of state contexts, all answers of the math library", "why_tests_cant": "The number of interleavings of calls and contexts is unbounded, and tests never make the math library fail.", "anchors": ["src/abe/zabe.cpp: OpenABE_initialize, OpenABE_shutdown, InitializeOpenABE, ShutdownOpenABE, OpenABEStateContext::initializeThread, OpenABEStateContext::shutdownThread", "include/abe_lsss.h: OpenABEStateContext", "src/abe/zpairing.cpp: zMathInitLibrary, zMathShutdownLibrary, OpenABEPairing::OpenABEPairing"]}
{"id": "C167", "title": "Exactly which bytes are read as integers, and as which", "statement": "The unchecked reader of OpenABEUInteger succeeds iff there are at least five bytes, whatever the first is and whatever follows; the checked reader also requires the tag. The value is the number the four bytes after the first write and the width is that of the object read into. Every other input gives exactly one error: another first byte a serialisation error (checked reader only), too few bytes the error of the vector. A written integer is five bytes and is read back as itself iff it is read into an object of the same width; two integers are written alike iff their values are equal.", "quantifier": "all byte strings of all lengths, all integers, all objects read into", "why_tests_cant": "The byte strings and values are unbounded or far too many to try.", "anchors": ["include/abe/zinteger.h: OpenABEUInteger::serialize, deserialize", "include/lsss/zinteger.h: OpenABEUInteger::serialize, deserialize"]}
{"id": "C168", "title": "Comparisons with numbers without width: what each operator means and when it is right", "statement": "For a number object with zero bits, lt, gt, le, ge and both kinds of range are undefined exactly when no value (lt 0, gt the maximum) or every value (le the maximum, ge 0) is on that side; otherwise they compare only the low bits in which the number, for le and ge changed by one, fits. They are right for every value iff the number is at least 65536 (65535 for le, 65537 for ge) and the case is defined.", "quantifier": "all numbers, all values, all attribute lists that give the attribute that value, all attribute names, all states of the driver", "why_tests_cant": "Wrong only for values beyond the width of the number; needs all pairs of 32 bit numbers.", "anchors": ["src/lsss/zdriver.cpp: cmp_policy, bit_marker_list, lt_policy, gt_policy, le_policy, ge_policy, range_policy, range_incl_policy"]}
{"id": "C169", "title": "The key manager with and without assertions", "statement": "A search answers the same in both builds for every state, so its assertion never fails; any history in which no key is stored for the empty user name has the same answers and states. Storing for the empty name stops the checked build before any entry is touched; the release build stores it, hands it out under its id, never finds it by search, and raises when asked to delete the keys of the empty name.", "quantifier": "all states, all queries and inputs, all finite sequences of commands, all key bytes", "why_tests_cant": "Tests run one build; the assertion in the search would have to fail for some state.", "anchors": ["src/abe/zkeymgr.cpp: storeWithKeyIDCommand, storeWithKeyPrefixCommand, searchKey, filterKeys, getKeyCommand, deleteKeyCommand"]}
