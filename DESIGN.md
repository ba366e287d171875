# Formal model of acarreo/abe-lsss in Lean 4

This file says what is modelled, how each property of `properties.jsonl` is stated and proved, what has to be
trusted, and where the code disagrees with a property. Sections 5 and 6 are generated from the Lean sources.

## 1. Layout

* `lean/Verif/Base.lean`: byte strings, outcomes (`ok`, `throw`, `ub`, `abort`), `std::map` as a sorted association
  list.
* `lean/Verif/Model/*.lean`: the model, function by function; every definition cites file and lines of /repo.
* `lean/Verif/Spec/*.lean`: small independent specifications (boolean formulas, the policy grammar, numeric
  relations, dates, text forms, attackers of the generic group model).
* `lean/Verif/Proof/*.lean`: helper lemmas.
* `lean/Verif/Props/*.lean`: the property theorems `Cnn_...`, grouped by subject, each group with `example`s that meet
  the hypotheses.
* `MANIFEST.json` maps property ids to theorem names, `AXIOMS.md` lists the axioms of each of them,
  `seeded/LOG.jsonl` records the experiments with wrong programs.

## 2. Conventions

* `Bytes = List UInt8`; `std::string` and `OpenABEByteString` are both `Bytes`.
* C++ undefined behaviour is the distinct outcome `ub`; exceptions are `throw e`; a failed `assert` and `exit` are
  `abort`. Theorems that say "succeeds" exclude all of these; theorems that say "is defined" exclude `ub`.
  Reading an uninitialised member, dereferencing a null pointer, an index beyond a vector without check and a raw
  pointer read past a buffer are `ub`.
* Objects are values; a member function returns the object as it is afterwards. Histories of calls are lists of commands
  run from a start state, and theorems about them are proved for all lists by induction.
* External code (RELIC arithmetic and pairing, OpenSSL ciphers, BLAKE2/SHA-256, `mktime`, `std::sort`, random
  generators) is a parameter of the model. What is assumed about it appears as a hypothesis of the theorem or as a
  field of a structure (`StdSort`, `CodecOk`, `Elem.Format.Lawful`), never as an axiom.
* When the code violates a property, the violation is proved with a concrete witness or for a whole class of
  inputs (`..._violated`), and the property is proved under a guard (`..._partial`, or a theorem whose hypotheses are
  met by the normal use). Such properties have the status `partial` in the manifest.

## 3. What is modelled

| source | model | remarks |
|--------|-------|---------|
| include/lsss/zbytestring.h | Model/ByteString | every codec, packing, comparison and operator; `getInternalPtr()` of an empty vector is harmless when nothing is read through it |
| include/lsss/zpolicy.h, src/lsss/zpolicy.cpp | Model/Policy, Model/Library (destructor), Model/CallStack | Model/CallStack has the two recursive functions with a call stack of limited size; trees, flags, printing, copying, `addToRoot`; reference counts in Model/Library |
| src/lsss/zlsss.cpp | Model/LSSS (over a field), Model/ScanStack (literal stack of the scan), Model/Zr (over `ZP` objects) | the three are proved equal where they overlap (C93, C97) |
| src/lsss/zelement_bp.cpp, include/lsss/zelement.h | Model/Zr (`ZP`), Model/Element (`G1`, `G2`, `GT`), Model/Container (codecs) | `bn_t` is `Int`; stream output is left out |
| src/lsss/zscanner.cpp (.ll) | Model/Scanner, Model/FlexBuffer, Model/Locations | the DFA tables are copied literally; C76 relates them to the lexical rules. FlexBuffer models the loop of yylex and its buffer (moving, growing, refilling, zero bytes, backing up, end of file); C116 proves that it gives the tokens of Scanner. Locations adds line and column counters and the places of tokens. Debug output, file names in locations, the stack of buffers, yyinput and yyunput left out |
| src/lsss/zparser.tab.cc (.yy) | Model/Parser, Model/Locations | the LALR tables and the loop of `Parser::parse`; Model/Locations adds the look-ahead, its place and the contents of the syntax error that is reported; Model/ParserHeap has the same loop on words of the union and a heap, with every `new` and `delete` of the scanner, the actions, the driver and the error recovery |
| src/lsss/zdriver.cpp | Model/Driver | all functions reached by the grammar actions; `kofn_tree`, `flexint_leader` are dead code |
| src/lsss/zattributelist.cpp, zfunctioninput.cpp | Model/AttrList, Model/Driver, Model/Utils (`copyFunctionInput`) | |
| src/lsss/hashattributes.cpp | Model/HashAttr | the BLAKE2s compression function is a parameter |
| include/{lsss,abe}/zinteger.h | Model/Container | both definitions of `OpenABEUInteger` |
| src/lsss/zobject.cpp | Model/Library | reference counts |
| src/abe/zcontainer.cpp, zciphertext.cpp, zkey.cpp | Model/Container, Model/ContainerUse (any calls on one container) | the `zeroize` stub is in Model/Utils |
| src/abe/zkeystore.cpp | Model/Keystore, Model/Container | |
| src/abe/zkeymgr.cpp | Model/KeyMgr, Model/KeyMgrThreads | Model/KeyMgr runs one command at a time; Model/KeyMgrThreads has the same commands as programs of threads with the mutex, one step per access to a member |
| src/abe/zkdf.cpp | Model/Kdf | |
| src/abe/zpairing.cpp | Model/Scheme, Model/Library | pairing and hash to the curve are parameters |
| src/abe/zsymkey.cpp, zsymcrypto.cpp, zcontextske.cpp | Model/Sym, Model/AeadSize | AES-GCM is a parameter; Model/AeadSize repeats encryption and decryption with the lengths of the code |
| src/abe/zcontextabe.cpp | Model/Scheme (encrypt, decrypt), Model/Cpa (moving keys), Model/SchemeObjects (all calls, on objects) | |
| src/abe/zcontextpke.cpp | Model/Pke | the mechanism is a parameter, the only subclass is inside `#if 0` |
| schemes/zcontextcpwaters.cpp, zcontextkpgpsw.cpp | Model/Scheme, Model/SchemeObjects | groups are modules over `ZMod q` with a bilinear map |
| src/abe/zabe.cpp, utils/utils.cpp, utils/abecontext.cpp, include/abe_lsss.h | Model/Library, Model/LibContexts, Model/LibThreads, Model/KeyMgr, Model/Utils | Model/LibThreads has initialisation, shutdown and `OpenABEStateContext` as programs of threads, one step per access |
| src/abe/zerror.cpp | Base (`Err`), Model/Utils (numbers and texts) | |

Simplifications are stated at the definitions. The main ones: sizes are natural numbers where the
code uses `size_t` (buffers of 2^31 bytes and more are excluded where the code converts to `int`, except in C137);
allocation does not fail; the contents of output arguments after an error are modelled only where a theorem
speaks about them; times of the key manager are natural numbers; threads (C114, C124, C136) interleave between accesses to members of the key manager, to the library state, to contexts of RELIC and to the key maps and the pairing of a context, memory is sequentially consistent, and a data race is reported as such.

Not modelled: RELIC, OpenSSL and BLAKE2 internals; memory addresses, leaks other than those of the parser (C119), of containers and what fills them (C120, C121), of symmetric encryption (C122), of a context with its keys and ciphertexts (C123) and the reference counts of C87;
logging and printing to the terminal (C126 has the contents of syntax errors, not their texts); timing and other side channels (C36 is about the value returned); threads outside of the key manager, of initialisation and of the calls of one scheme context (policies, lists and keys shared by two contexts, for example);
computational security of the schemes (C06, C97 and C100 are about the information in the shares, C47 about the return
code, C113 and C115 about attackers that only use group operations and pairings); `#if 0` code (zcontextcca.cpp except for the transform itself in C135, zcontextpksig.cpp, `OpenABEContextOPDH` in zcontextpke.cpp); test and build
files.

## 4. Statements and methods per property

| id | statement about | method |
|----|-------|--------|
| C01 C02 C09 C10 C11 | policy trees with mark/visited/count flags, the loops of zlsss.cpp over any field | the explicit-stack loops equal structural recursions (induction on trees); Lagrange identity for one and two points; a three-input AND fails because the running product is squared |
| C03 C04 C05 | `iterativeScanTree`, `resetFlags`, flags as state | invariant "flags clear" restored by reset; histories by induction |
| C06 C97 C100 | sharing as a function of the random tape | a tape translation (polynomial vanishing at the known points) preserves the view; counting; C97 transfers C01 and C06 to `ZP` objects by a simulation |
| C114 | programs of single accesses and mutex operations, threads that take turns in any order | linearizability with the effect at the moment the mutex is taken, as an invariant of all executions of any guarded programs; each program alone equals the command of Model/KeyMgr |
| C113 | games that run parameter generation, key generation and encapsulation of the model with random values as unknowns | the exponent of every visible element as a function of the unknowns; a linear functional (differences along sharings of one that vanish on the attributes of each key) that kills all products of exponents but not the secret; the Schwartz-Zippel lemma |
| C115 | the same games, with keys and ciphertext issued one by one on request | an attacker is a tree; every answer is the one a polynomial identity predicts, except for the zeros of that polynomial (Schwartz-Zippel) and, with a random challenge, one value of it; a union bound along the predicted path, by induction on the tree |
| C116 | yylex with a buffer gives the tokens of the text | between calls the buffer, with the held byte put back, holds a prefix of the rest of the text; inside a token the state is the one that the text since the token's start leads to; induction on unread input and unread buffer; the automaton facts (every state moves to the end state on a zero byte, every state after the first byte accepts) over the complete tables |
| C117 | programs of calls on one context whose keys and ciphertexts are objects; failing lookups leave null pointers in them | a simulation relation (same components; equal, or a null entry) between objects and values, kept by every call and so by every history; invariant "no null entries" for histories without failed lookups |
| C118 | the programs of C117; a table of the components of the schemes and their types | invariant "every component of every stored key and ciphertext has its type or is null, and keys only exist once there is a pairing object", kept on values by every careful call; definedness of each body by going through its lookups; transfer to objects by C117; exported bytes are careful by the round trips C41 and C42 |
| C119 | Model/ParserHeap: the parser's loop with a stack of words over a heap of strings, numbers, lists and tree nodes; `TreeAt` says that a tree is stored at an address and which cells it takes | simulation of the parser on values round by round: the words on the stack, the lookahead and the policy's root own disjoint cells, and these together with the lost cells are all cells; one lemma per action and per destructor; the kinds of values on the stack come from the LALR invariant of Proof/ParserInv, the absence of trees in attribute lists from a closed set of states |
| C120 | Model/Memory: containers as maps of pointers over a heap of objects and buffers, histories of calls on any number of them; Spec/Memory: the same calls on values, and what each leaves behind | simulation call by call: the pointers of all containers lead to different objects, and the heap is a permutation of these objects and of what was left behind |
| C121 | Model/Memory: the operations of the schemes that fill a container, written once over an interface with the two things they do to memory; equal to Model/Scheme when run on values | the operations are related for all pairs of related interfaces (pointers, values with what is left behind, values); which names they set follows by composition, and how many objects are overwritten by counting names |
| C122 | Model/CipherMemory: cipher contexts, buffers and stream objects as cells of a heap, the stream context with plain pointers; compared with the values of Model/Sym | simulation call by call with the cells an object owns before and after; the cells of others stay; counting |
| C123 | Model/ContextMemory: the keystore with shared pointers, ciphertext objects and all calls of a context over an interface of containers, run on the heap; compared with the calls on values of Model/SchemeObjects | two simulations (heap to books, books to values), an invariant that every container has exactly one owner, induction over the history; traces of the stored names for the exact leaks |
| C124 | programs of single accesses to `gLibraryState`, contexts of RELIC and flags, any number of threads | a thread that touches only its own parts and reads shared ones gets the results it gets alone, as an invariant of all executions; races and double initialisation by exhibiting executions for all continuations |
| C125 | `lexL`: the scanner with `location` | induction on the text, one match at a time |
| C126 | `parseLoc`: `Parser::parse` with its look-ahead and report | every stack of states can be completed to a policy; a run with other dates and another rest follows the first one to the error; tables checked for all states |
| C127 | `toString` and the copy constructor with a limited number of frames; sizes of the trees the driver builds | induction on the number of frames; induction over derivations, 32 leaves for each comparison |
| C128 | `exportKeyToBytes`, `exportToBytes` over the key generation, encryption and list-reading models | weight of a container, induction over the loops; bytes and numbers of tokens against items |
| C129 | `is_valid_date` and the date rules of the driver, over a `mktime` that counts days on | case analysis over months and leap years, induction over days (every day number has a date), then C13 |
| C130 | `zeroize`, assignment and growth of byte strings; keys, key derivation, wrapper encryption and authenticated encryption over the blocks they leave | list of left blocks computed per function (`Emits`), induction over the keys and the blocks of the hash |
| C131 | `encrypt`, `decrypt` of the wrapper and both schemes | congruence of decapsulation in the components it reads; bytewise xor algebra |
| C132 | `encrypt` of the wrapper, `hashFromBytes` with open answers of the hash function | encapsulation does not ask the inputs of the mask; a bijection of the answers exchanges the messages; periodicity of the mask |
| C133 | traces of branches, addresses and lengths of the byte-string, masking and derivation functions | relational rules: two runs with equal lengths give equal traces; erasing traces gives the other models |
| C134 | `hashFromBytes`, `DeriveKey` with division in `double`, `int` sizes, stack arrays and lengths cut to 32 bits | any rounding to nearest leaves the quotient between the same integers: a representable value is closer than the lower one; block loop by induction |
| C135 | the re-encryption transform of zcontextcca.cpp (disabled code) on top of the modelled wrapper | what decrypts has a byte string, and a container with a byte string equals no container (induction over the names) |
| C136 | the calls of a context as programs of single accesses to the maps of keys and the pairing; each program alone equals the function of Model/Scheme | programs that only read leave every execution in the initial state with the results of single calls (invariant); races and mixed parameters by exhibiting executions for all continuations; linearizability under a mutex from C114's invariant |
| C137 | lengths reduced to `int`, negative lengths refused by OpenSSL without a stored length (trusted), unset variables, a 17 byte buffer | the computation equals the exact one on shortened arguments; collapse of all messages of 2 GiB to 4 GiB to one ciphertext |
| C138 | number of rows of a recovery, number reported by `checkIfSatisfied`; least number as a minimum over ways to satisfy the tree (Spec/Rows.lean) | invariant of the scan (marked subnodes of OR gates have the fewest direct subnodes), induction over the tree; converse by building attributes and a sort for the OR gate that is ordered wrongly |
| C139 | free functions for symmetric keys on a keystore with keys of both kinds (Model/KeyRing.lean) | refinement of two maps that are functions of the history; undefined histories characterised by induction |
| C140 | readers of containers, ciphertexts and keys on arbitrary bytes | invariants of what a reader can return; the writer is total on it and the reader inverts it |
| C141 | histories of calls on a context around issuing, encrypting and decrypting | invariant "the objects named by the ids are held", kept by every call that does not name them; then C46 and C90 |
| C142 | `multi_pairing` with its two arrays on a stack of limited size | the decryption with arrays equals the one without, or is undefined, by the number of rows of recovery |
| C143 | labels of rows, copies of policies, names with colons, for all texts | counting of numbered labels; an exact condition on occurrences of names |
| C144 | encoders on values beyond their length fields | lengths modulo 2^32; case analysis |
| C145 | histories of uses of sharing objects, policies, keystores and containers | invariant "what the object remembers"; total length of labels for the converse |
| C146 | all texts and calendars | induction over formulas; the parser's invariant, and a second calendar in which no date is out of range |
| C93 | the literal stack machine of the scan | termination measure and equality with the recursion by induction over the tree |
| C98 C99 | operators of `ZP`, `G1`, `G2`, `GT` | residue rings, Bezout; case analysis |
| C07 C18 C49 | label construction | injectivity of decimal printing and of the separators; witnesses with `%` and `:` |
| C08 C12 C72 C87 | members carried over between calls, uninitialised members, `NDEBUG`, reference counts | state passed explicitly; invariants |
| C13 C14 C15 C74 | LALR tables and `Parser::parse` | soundness by an invariant on the state stack, completeness by simulation of each grammar derivation; the specification is the ambiguous grammar with precedence as an inductive relation |
| C76 | flex tables | every state of the automaton is given a meaning as a set of residual rules, checked transition by transition over the complete finite table, then induction over the input |
| C16 C17 C28 C29 C68 | scanner + parser + driver together | print/scan/parse round trips by induction |
| C19-C25 C71 C86 | bit-marker lists for numeric comparisons | induction over bits; interval arithmetic |
| C26 | date functions with `mktime` as a parameter | reduction to C19-C23 |
| C27 C75 | driver state, list equality | state machine; witnesses |
| C30-C38 C73 | byte string functions | round trips by induction over the string |
| C39-C43 | container, ciphertext, key codecs | induction over the map |
| C44-C47 C88-C92 | both schemes over abstract modules with a bilinear map | algebra from C01; case analysis of each failing step; codecs for the versions across bytes |
| C48 | `hashFromBytes` for any hash | period of the block counter |
| C50-C57 C80-C85 | symmetric classes over an abstract AEAD | invariants of the stream objects over all histories |
| C58 C59 | key derivation over an abstract hash | induction on the block loop |
| C60-C67 C77-C79 | keystore and key manager as state machines | refinement of an abstract map, invariants over lists of commands |
| C69 C70 | library state and scheme identifiers | state machine over all histories, case analysis over the complete tables |
| C101 C102 | `getFunctionInput`, key search and decryption composed | the input survives key generation, encryption and the codecs; C65, C79 and C90 are combined into one statement about texts |
| C103-C108 | context creation, error texts, copies, deletion, active users, hash key | complete case analysis; refinement of maps of users by induction over the calls |
| C109-C112 | stream keys, public key contexts, ciphertexts without header, attribute lists | key store lookups; the round trips of containers; unique splitting at bars |
| C94-C96 | public key encryption over an abstract mechanism | algebra of the mechanism, case analysis of failing steps |
| C147 | all keys of 32 bytes, authentication data, byte strings and ciphers | inversion of the reader against an inductive description of fields, uniqueness of the fields |
| C148 | all byte strings, all containers, ciphertexts and keys read into, all group libraries (read functions and sizes) and all implementations of mktime | grammar of fields and values as inductive relations in Spec/Items; equivalence with the reading loop by induction on the bytes that remain |
| C149 | all histories of calls, all names, users, keys, inputs, times and orders of equally good keys | refinement to two maps and a set; induction on histories from their end; the invariants of the key manager |
| C150 | all containers, attribute lists and symmetric keys | analysis of the loop over the names with the first name that cannot be compared; the order of the map makes it unique |
| C151 | all keys and all finite sequences of the eight calls with all arguments | refinement: a relation between the object and the recorded session, kept by every call; then an invariant over the history for the bytes since the start |
| C152 | all finite sequences of the ten calls with all arguments; all byte strings loaded as keys | refinement over C149 (names) and C151 (stream objects); comparison of histories that differ in tags by induction |
| C153 | all finite sequences of calls with all names and objects, all codecs | refinement of the map by one slot for each name, by induction on the history |
| C154 | all expression trees, all integers in the objects, all primes | induction on the expression, in both directions |
| C155 | all words, day and year numbers in this range, all fixed offsets within a day, all policies and lists | a closed formula for the first day of a year, linear arithmetic modulo 2^64; then C13 |
| C156 | all accepted policy texts, all added texts, all sequences of additions, all attribute sets | The added formula is grafted onto the left spine of the parenthesised one; converse by balanced parentheses; induction over the additions; trees built from different driver counters are satisfied by the same attributes |
| C157 | all texts, all positions in them, all runs of blanks | The scanner on concatenated texts, and the tree built by the grammar actions does not depend on the remembered input |
| C158 | all byte strings accepted as policies (any names, colons, nesting, conditions and dates), all local-time functions, all attribute lists | Induction on the built tree for the tokens of the printed text; lemmas on splitting at colons; C14 for the rejected texts. |
| C159 | all counts, all lists of byte strings without '=' (any length and content), all local-time functions | Induction on the scanner for the absence of '='; the reader of C74 and C29 on lists of plain items. |
| C160 | every policy text with its formula, every attribute-list text with its items, every list of values and every condition | one-sided invariants of the marker loops over the common and the joint bits of the values, and equality of the driver's bookkeeping with a greedy selection of items |
| C161 | every policy text, every list text, every message, all random values, every context with the keys | composition of the meaning of arbitrary lists (C160) with correctness and refusal of the schemes (C46, C47) |
| C162 | all digests, all key derivation objects, all secrets, all other information, all 32-bit bit lengths | induction on the blocks, one lemma for hash lengths from 31 on and one below; case analysis on the checks |
| C163 | all keys, authentication data, IVs of 16 bytes and messages, with and without Base64, for every GCM whose tag has 16 bytes | case analysis on the lengths modulo 2^32, with the lemmas of C137 |
| C164 | all histories of commands, all users, prefixes, key bytes, expiry dates and results | induction over histories; the other commands leave the counters alone |
| C165 | all environments, both schemes, all contexts, keystores, inputs, policies, attributes, lengths, random draws, keys and ciphertexts | The loops and bodies of both schemes agree under the two settings of the flag; sharing differs only at a gate, recovery only without a root, and parsed policies have one. |
| C166 | all finite call sequences, all numbers of state contexts, all answers of the math library | Induction over the history; the specification speaks about the history only. |
| C167 | all byte strings of all lengths, all integers, all objects read into | Case analysis on the length of the input and arithmetic of four bytes. |
| C168 | all numbers, all values, all attribute lists that give the attribute that value, all attribute names, all states of the driver | From C86's meaning of the bit trees; determinism, witnesses 2^width, wrap of 32 bit addition. |
| C169 | all states, all queries and inputs, all finite sequences of commands, all key bytes | Induction over the ids that the filter returns (each is present and stays so), over histories, case analysis of the store. |

## 5. Trusted base

* Lean 4.33.0's kernel. The axioms used by the theorems of the manifest are `propext`, `Classical.choice` and
  `Quot.sound` only; `AXIOMS.md` lists them theorem by theorem (output of `#print axioms`). No other axioms, no
  `sorry`, no compiled evaluation.
* The transcription of the C++ into the model, reviewable by the line references in every definition.
* Mathlib (checked by the same kernel).
* The assumptions on external code, which are hypotheses of the theorems that use them:
  `std::sort` returns a sorted permutation (`StdSort`); RELIC's `bn_*` functions on integers as described in
  Model/Zr; the groups have prime order and the pairing is bilinear (hypotheses of the theorems about `Env`); the binary formats of group elements
  round trip (`CodecOk`, `Elem.Format.Lawful`); GCM is a stream cipher with a tag of 16 bytes (`Gcm`); `mktime`
  as stated by the theorems of C26; hash functions are arbitrary unless a theorem says otherwise.


## 6. Where the code disagrees with a property

Generated from the comments of the `_violated` theorems.

**C05 recoverCoefficients depends only on its arguments**

* `C05_later_calls_repeat_first_violated`: The code violates C05: on a policy whose root is a gate every later call repeats the answer of the first call, whatever attributes it is given. In particular a caller with no attributes at all is told that recovery succeeded.

**C07 Every leaf keeps its own share**

* `C07_lost_share_violated`: Three leaves, two rows: a share is lost.

**C08 Reusing a secret-sharing object is safe**

* `C08_reuse_violated`: The code violates C08: after sharing under `a and a`, sharing under the policy `a` stores the row under `a%0` instead of `a`.

**C09 Recovery works for AND gates of every width**

* `C09_three_input_and_violated`: The code violates C09 for three inputs, over every field of characteristic other than 2, 3 and 5 (in particular the group order used by the library): `a and b and c` as one gate, all three attributes held, all random coefficients zero, and every non-zero secret is recovered wrongly (as 17/2 of it).
* `C09_wide_and_violated`: The code violates C09 for every width from three on: an AND gate with `n ≥ 3` inputs recovers every non-zero secret wrongly for some random coefficients, unless `wideFactor n` is one in the field.

**C12 Copying a policy preserves its meaning**

* `C12_copy_repeats_violated`: The code violates C12 for repeated attributes: a copy of `a and a` reads an uninitialised index when a secret is shared, and an assigned policy puts both shares under one label.

**C15 The whole policy string is honoured**

* `C15_nul_hides_the_rest_violated`: The code violates C15: after a NUL byte the rest of the text is ignored. Whatever follows an accepted policy behind a NUL, the result is the same policy.

**C16 Printing a policy and parsing it again preserves it**

* `C16_bracket_violated`: The code violates C16: the attribute `[0]::` is accepted, printed as `[0]:`, and that is a keyword.
* `C16_numeric_violated`: And a numeric comparison prints as words that the scanner rejects.

**C17 addToRootOfInput adds exactly one conjunct or disjunct**

* `C17_nul_violated`: The code violates C17: a policy accepted because of a NUL byte turns into the null pointer.
* `C17_attribute_text_violated`: The added text is not protected by parentheses: "adding the conjunct" `x or y` to `a` gives a policy satisfied by `y` alone.

**C18 Repeated attributes get distinct share labels**

* `C18_percent_violated`: The code violates C18 and C07: in `a or a or a%1` the second `a` and the leaf `a%1` get the same label.
* `C18_colon_violated`: Names with a trailing colon collide as well: the prefix and the attribute are split and rejoined, the repetition is counted under the written text. In `a:b: or a:b` both leaves have the label `a:b`.

**C25 Compiling a numeric comparison never hits undefined behaviour**

* `C25_date_violated`: C25 fails for dates: comparing with a day whose number is 0 (1970-01-01 in UTC) is an out of range shift, for every prefix, in `<` and in `>=`.

**C26 Date comparisons agree with day order**

* `C26_prefix_time_violated`: The code violates C26 for the prefix `time`: the policy asks about the attribute `time`, the list sets `time:time`, and the date of the list is never seen. In every fixed time zone the policy `time = Mar 1, 2026` is not satisfied by the list `|time = Mar 1, 2026`.
* `C26_unknown_month_violated`: And the month is not checked: a policy with the date `Foo 1, 2026` is accepted, with whatever `mktime` makes of month -1.

**C27 An attribute list asserts one value per numeric attribute**

* `C27_two_values_violated`: The code violates C27: a text that sets a number twice is accepted, and the list then satisfies equality with both values and with values that were never mentioned.

**C28 An attribute satisfies the policy consisting of itself**

* `C28_colon_violated`: The code violates C28: both parsers accept `a:b:`, but the policy looks for `a:b` and the list holds `a:b:`.

**C29 Attribute lists survive their compact string**

* `C29_added_attribute_violated`: For lists built with `addAttribute` the round trip fails: it takes any text as an attribute. The attribute `a b` is stored and its compact string is rejected.

**C33 smartPack/smartUnpack round trips**

* `C33_smartPack_violated`: C33 violation: packing the empty string leaves no trace, so unpacking raises at the end of a buffer and otherwise returns the *following* item.

**C34 Byte string serialization round trips**

* `C34_serialize_violated`: C34 violation: an empty value does not overwrite the target.

**C38 Appending a text string with + appends its bytes**

* `C38_plus_string_violated`: C38 violation: `bytes + "text"` never appends the text (unless the text is empty).

**C39 Containers round trip through serialization**

* `C39_empty_violated`: The code violates C39 for the empty container: its serialization is empty, and reading that raises `std::out_of_range`.
* `C39_empty_name_violated`: The code violates C39 for an empty name: the name is not written, so the value is taken for the name.
* `C39_policy_violated`: The code violates C39 for a policy: storing one stores a null pointer, and writing the container is then undefined.

**C40 Looking up a missing component does not damage a container**

* `C40_failed_lookup_violated`: The code violates C40: every failed lookup adds an entry, and a container that could be written to bytes before cannot be afterwards (a null pointer is dereferenced).

**C41 Ciphertexts survive export and import**

* `C41_long_uid_violated`: The code violates C41: a uid longer than 16 bytes is accepted by the constructor (and any length by `setHeader`), the ciphertext exports, and the import rejects it.
* `C41_no_components_violated`: The code violates C41: a ciphertext without components exports and cannot be imported.

**C42 Keys survive export and import**

* `C42_empty_list_violated`: The code violates C42: a key that holds an attribute list without attributes (as `OpenABEAttributeList(0, {})` makes it) exports, and its body is rejected on import.

**C43 Container equality means equal contents**

* `C43_extra_names_violated`: The code violates C43: names that only the second container has are not noticed.
* `C43_bytes_violated`: The code violates C43: a container with a byte string never equals itself.
* `C43_empty_right_violated`: The code violates C43: comparing with an empty container reads behind the end of a vector.
* `C43_missing_name_violated`: The code violates C43: a name that only the first container has raises an error instead of the answer no.

**C48 The encryption mask does not repeat**

* `C48_mask_repeats_violated`: The code violates C48: the block counter has 8 bits, so the mask of every message longer than 8192 bytes repeats, for every hash function and key.
* `C48_ciphertext_leaks_violated`: So the ciphertext of a long message tells the xor of message bytes 8192 positions apart, to anyone.

**C49 Different attributes get different component labels**

* `C49_labels_collide_violated`: The code violates C49: for every hash function, every name of more than 16 bytes shares its label with a name of 16 bytes. No hash collision is involved.
* `C49_component_lost_violated`: The consequence: a decryption key for both names holds only the second one's component, under the label of both.

**C50 Symmetric key equality compares the key bytes**

* `C50_key_data_violated`: C50 is violated: keys with the same header compare equal whatever their key data.

**C51 Symmetric key handle round trips**

* `C51_empty_violated`: C51 is violated for the empty message: its ciphertext has no second field, and decryption ends in an `std::out_of_range`, which is not the documented `runtime_error`.

**C52 SymKeyEncHandler round trips**

* `C52_empty_violated`: C52 is violated for the empty message with authentication data of less than 16 bytes: the tag is taken for the ciphertext and the authentication data for the tag.

**C53 Streaming encryption is independent of chunking**

* `C53_long_violated`: C53 is violated from 4 GiB on: the end of the encryption raises an error and there is no tag.

**C54 The streaming object reports misuse**

* `C54_silent_violated`: C54 is violated: updating or finishing before starting returns `OpenABE_NOERROR`, and so does starting a second decryption, whose IV and tag are ignored.

**C55 A failed authentication tag is reported**

* `C55_any_tag_violated`: C55 is violated: the context decrypts any ciphertext with any tag, of any length, and no call returns an error.

**C56 Symmetric keys survive export and import**

* `C56_no_data_violated`: C56 is violated without key data: the export of a key object that has none cannot be imported.

**C57 Exporting a streaming key and loading it restores the key**

* `C57_reload_violated`: C57 is violated: what the context exports for a key it generated does not depend on the key, and loading it always fails.

**C58 DeriveKey fills the whole key with hash output**

* `C58_zero_bytes_violated`: C58 fails for longer keys: whatever the hash function, the secret and the other information, every byte of a 512 bit key after the first 32 is zero (the position in the array moves by 256 bytes for each block of 32).
* `C58_huge_keys_violated`: C58: the largest lengths overflow the size of the array.

**C59 HKDF and KDF2 return exactly the requested number of bytes**

* `C59_rfc5869_violated`: C59: this is not the HKDF of RFC 5869, even for one block: key and salt have changed places in the first stage, and the salt is hashed.
* `C59_counter_violated`: C59: RFC 5869 refuses more than 255 blocks; here they are derived, and block 257 gets the counter of block 1.

**C60 Key lookups do not create keys**

* `C60_lookup_creates_violated`: The code violates C60: in every state, looking up a missing secret key makes `checkSecretKey` answer yes, although the next lookup still finds nothing.
* `C60_validate_creates_violated`: Checking whether a new id is free also makes `checkSecretKey` answer yes.

**C62 Deleted keys are gone**

* `C62_delete_violated`: `deleteKeyCommand` deletes nothing: every id that it reports is still there, its owner still reads the same key, and every search gives what it gave before.

**C64 Storing a key never removes another user's key**

* `C64_other_user_violated`: Any user can take away the key of any other user: storing anything under the same id, with any outcome, leaves the owner with nothing.
* `C64_prefix_violated`: Two users with equally many stored keys who use the same prefix: the second one takes away the key of the first.

**C65 Key search is sound and complete**

* `C65_empty_id_violated`: A key stored under the empty id hides all keys of the user: the search that takes the first key reports that there is none.

**C67 A failed store changes nothing**

* `C67_failed_store_violated`: A store that fails (also one for the owner, here with no key bytes at all) has already removed the key under its id.

**C68 Hashing attributes preserves access decisions**

* `C68_substring_violated`: A policy text in which an attribute is part of another one.
* `C68_keyword_violated`: An attribute that is part of a keyword: hashing `a and b` gives a text that is not a policy.
* `C68_null_violated`: A text that is not a policy makes the code dereference a null pointer, and likewise for lists.

**C69 Library state machine**

* `C69_failed_math_violated`: **C69 (violated: failure of the math library is not reported).** After any history, creating a pairing object is undefined iff the first initialisation since the last shutdown failed in the math library; that initialisation itself reported success.
* `C69_thread_shutdown_violated`: **C69 (violated: threads are not shut down).** Shutting a thread down initialises the math library again: the context of RELIC is left as after an initialisation, whatever the state before, and a direct call of `initializeThread` on a constructed context does nothing.

**C70 Scheme identifiers round trip**

* `C70_round_trip_violated`: **C70 (violated).** The name of CBC and stream encryption is the name of GCM encryption, and the names of the CCA schemes are those of the CPA schemes: reading the name back gives another identifier.

**C72 Secret sharing works in release builds**

* `C72_release_build_violated`: The code violates C72: with NDEBUG every policy with a gate at the root has undefined behaviour, while the checked build shares the secret.

**C73 Unsigned integers survive serialization**

* `C73_width_violated`: The code violates C73: the width is not written, so an explicit integer comes back as another one.
* `C73_tag_unchecked_violated`: The code violates C73: the reader of include/lsss accepts every tag.

**C74 The attribute-list parser accepts exactly the grammar**

* `C74_double_bar_violated`: The code violates C74: the grammar derives `a||` (a list may be followed by a bar, twice), the parser rejects it.

**C75 Attribute-list equality compares the lists**

* `C75_always_equal_violated`: The code violates C75: comparing with a non-empty list never answers "different".
* `C75_witness_violated`: `|a` and `|b` are reported equal; comparing two empty lists reads behind the end of the buffer.

**C77 Keys stored with a prefix keep their ids apart**

* `C77_prefix_ids_violated`: The 21st key that a user stores with a prefix gets the id of the first one, and replaces it.

**C78 Keys without function input are rejected**

* `C78_other_schemes_violated`: The bytes of a well-formed key of a scheme without function input (symmetric, signature, public key): storing them is undefined behaviour (a null input is dereferenced).

**C80 Accepted symmetric keys are long enough for the cipher**

* `C80_short_key_violated`: C80 is violated: a handler accepts every key of 16 bytes, and encrypting with it reads 32 bytes of key.
* `C80_no_key_violated`: C80: a handler made without a key dereferences a null pointer when used.

**C81 No history of the stream context is undefined**

* `C81_empty_blob_violated`: C81 is violated: loading an empty blob returns `OpenABE_NOERROR` and stores a key without data; starting an encryption or decryption with it reads beyond the key.

**C82 Stream decryption checks the whole tag**

* `C82_short_tag_violated`: C82 is violated: decryption of a stream accepts the first byte (or more) of the tag in place of the tag.

**C83 A stream object can be used again**

* `C83_reuse_violated`: C83 is violated: an object that has encrypted with given authentication data computes other tags from then on; what it encrypts next cannot be decrypted by a new object with the same authentication data.

**C84 The string interface reports failed decryption**

* `C84_silent_failure_violated`: C84 is violated: decryption of strings returns the empty string for a ciphertext with a wrong tag, which is also what it returns for a correctly encrypted empty message.

**C85 Malformed ciphertexts are handled**

* `C85_empty_iv_violated`: C85 is violated: a ciphertext whose IV field has an unknown type byte is decrypted with an empty IV buffer.

**C86 Comparisons with numbers without width**

* `C86_low_bits_violated`: C86 is violated: 20 counts as less than 5, and 16 does not count as greater than 7.

**C87 Deleting a policy releases its tree**

* `C87_violated`: **C87 (violated).** Deleting a tree releases exactly one node, the root: every tree with a subnode leaks.

**C90 Keys and ciphertexts work after they were sent as bytes**

* `C90_empty_list_violated`: The code violates C90 for keys without attributes (`OpenABEAttributeList(0, {})`): key generation accepts the empty list and the key is exported, but loading it raises.

**C91 Keys are not overwritten**

* `C91_keygen_violated`: The code violates C91: key generation takes the id of the master secret key for the new key, succeeds, and the master secret key is gone. Whenever that happens, the context holds a user key under that id and no later key generation with it succeeds.
* `C91_keygen_reachable_violated`: Such a key generation exists: after any successful parameter generation, in the ciphertext-policy scheme, for every list of attributes.
* `C91_export_violated`: The code violates C91 for exports: an id that names a public key and a secret key exports the public key, so a user key made under the id of the public key cannot be handed out.

**C92 Loading malformed key bytes returns an error code**

* `C92_short_violated`: The code violates C92: bytes shorter than a key header raise an exception that `loadKey` does not catch; its test for a null header is never reached with one.
* `C92_null_header_violated`: And `parseKeyHeader` never gives `loadKey` a null header to test for: it raises instead.

**C95 Public key decryption accepts only authentic ciphertexts**

* `C95_empty_iv_violated`: A ciphertext with an empty `IV` component is undefined: the cipher is initialised from the buffer of an empty vector.

**C96 Return codes of public key encryption**

* `C96_load_before_params_violated`: A context whose mechanism has not created its pairing object dereferences a null pointer when a key of its scheme is loaded: where the ABE wrapper creates the object, this one does not.
* `C96_short_key_violated`: A mechanism that hands out fewer than 32 key bytes makes the cipher read beyond the key.

**C97 Secret sharing with ZP objects computes in the field**

* `C97_unreduced_secret_violated`: A secret that was not reduced is not found equal to the recovered value: the policy `a`, the group order 11 and the secret 18 (`ZP(char*, bignum_t)` does not reduce): 7 is recovered and `operator==` compares the integers.

**C98 ZP arithmetic is arithmetic modulo the order**

* `C98_inverse_no_order_violated`: Without an order inversion leaves the object as it is.
* `C98_mixed_orders_violated`: Sums of operands with different orders depend on the side.
* `C98_no_order_violated`: Two objects without an order (for instance `ZP(2) + ZP(3)`, or `setFrom` on a new object) are reduced modulo zero, whatever the values.
* `C98_setFrom_new_object_violated`: `setFrom` on a new object never works: the order of its argument is not copied.
* `C98_value_equal_to_order_violated`: An object whose value is the order itself is zero in the field, but it is neither found equal to zero nor caught by the test for division by zero; no inverse exists and the result is unspecified.
* `C98_deserialize_order_violated`: Such an object comes out of `deserialize`, which reduces only values greater than the order: the bytes of the number 11 read with the order 11 give 11.
* `C98_shift_violated`: Shifting left leaves the field.
* `C98_random_bound_with_order_violated`: With a bound that has an order `setRandom(ZP &)` draws nothing: the object keeps its value, so that a new object stays zero.
* `C98_random_other_order_violated`: In an object that has an order `setRandom(ZP &)` draws below the argument instead: every value between the order and the argument leaves the field.

**C99 Group elements: subtraction, division and the compression flag**

* `C99_other_flag_violated`: If the flag was changed between writing and reading, every element other than those written as one byte ends the process.
* `C99_gt_hash_depends_on_flag_violated`: The key derived from an element of `GT` depends on the flag: if the two formats of the element differ then the two digests agree only at a collision of the hash function.
* `C99_subtraction_violated`: `x - y` in the curve groups is `-y`: it is the difference only if `x` is the identity.
* `C99_self_difference_violated`: In particular `x - x` is not the identity.

**C100 Privacy of shares when the random coefficients are never zero**

* `C100_nonzero_draws_violated`: If the random coefficients are never zero, the holder of one of two attributes learns something: a share equal to `s` is seen for every secret other than `s`, and never for `s`.

**C101 The function input can be read back from keys and ciphertexts**

* `C101_cast_violated`: The code violates C101 for bytes from elsewhere: a key-policy ciphertext whose `attributes` are a byte string is loaded without complaint, and then the cast reads the wrong object.

**C104 Every error has its own text**

* `C104_violated`: The errors for a missing random number generator, a bad policy tree and a bad input type have no text: all three, like any number that is not a code, are reported as unrecognized.

**C105 A copy of a function input is the same input**

* `C105_violated`: `copyFunctionInput` of a policy is a null pointer: neither of its keys, searches nor ciphertexts can use the copy.

**C106 A deleted key is gone**

* `C106_zeroize_violated`: Erasing is not implemented: `zeroize` of a key or ciphertext reports so and leaves every component readable, so that the object of a deleted key still holds its secrets.

**C107 Registered users and their passphrases**

* `C107_no_protection_violated`: A passphrase protects nothing: whatever is registered for whatever user, reading, searching, storing and deleting keys give the same answers as before.
* `C107_pass_kept_violated`: Removing a user keeps the passphrase.

**C108 The hash key and the presence of keys are reported correctly**

* `C108_delete_absent_violated`: Deleting a key that does not exist makes `checkSecretKey` report it.
* `C108_failed_decrypt_violated`: So does a decryption that failed for want of the key.

**C109 Keys of the symmetric stream context**

* `C109_failed_init_violated`: A stream that could not be started for want of its key makes the id unusable: key generation then reports that the id is in use, although it names no key.

**C111 Ciphertexts without header**

* `C111_empty_violated`: A new component set with no component: it is exported, but it cannot be read back.

**C112 Attribute lists as objects**

* `C112_str_violated`: `addAttribute` takes any text without `=` as one attribute: two lists with different attributes print the same.
* `C112_sync_violated`: A prefix is looked for anywhere in the text: the original attribute of another authority is taken over when the name of the first one occurs in it.
* `C112_add_violated`: A string with a `=` that is not an attribute text is dereferenced as a null list: for every such string and every list the addition is undefined, for example for "=".

**C114 Several threads use one key manager**

* `C114_store_races_violated`: `storeWithKeyIDCommand` does not take the mutex: replacing a key races with another store and with a command that takes the mutex.
* `C114_accessors_race_violated`: `setPassphrase`, `getActiveUsers` and `getUserKeyCount` do not take the mutex either: they race with commands that do, whatever the key manager holds.
* `C114_stores_not_linearizable_violated`: Even if every single access to the map were atomic: two threads that store the same key under two ids at the same time both succeed, and the user has two keys with one input. No order of the two commands explains this, since the second one would be refused (`C79_accepted_iff`).

**C116 Scanning does not depend on how the text is buffered**

* `C116_long_piece_violated`: A text with a piece of 2^30 - 1 bytes or more, say an attribute name of one gibibyte: the calls before it return their tokens, then doubling the size of the buffer overflows an `int`, which is undefined.

**C117 Failed operations do not damage keys and ciphertexts**

* `C117_master_key_violated`: **C117, violated** Decrypting with the id of the master secret key is refused with `OpenABE_ERROR_ELEMENT_NOT_FOUND`, in both schemes and for every ciphertext. But the lookup of "input" has put a null pointer into the stored master secret key: exporting it worked before and is undefined afterwards (a virtual call on a null pointer in `OpenABEContainer::serialize`). So one wrong id makes it impossible to save the master secret key of a running authority.
* `C117_user_key_violated`: **C117, violated** A user's key given by mistake as the master secret key: key generation is refused with `OpenABE_ERROR_ELEMENT_NOT_FOUND`, but the user's key now has a null entry under the name of the missing exponent, and exporting it is undefined. For both schemes, every input of the right type, every public key with a hash key and every user key.
* `C117_ciphertext_violated`: **C117, violated** The same for ciphertexts: decrypting a ciphertext without its policy (bytes from outside can be such a ciphertext) is refused, and exporting the ciphertext object afterwards is undefined.

**C118 No history of calls on a context is undefined**

* `C118_hostile_params_violated`: The code violates C118: there are bytes that load as public parameters without an error in every context with a known scheme identifier, and every later encryption under them follows a null pointer, because a component has another type than the code casts it to (include/abe/zcontainer.h:69-76).
* `C118_hostile_ciphertext_violated`: The code violates C118: there are bytes that load as a ciphertext without an error, and every decryption of it with a key of the ciphertext-policy scheme follows a null pointer. Its policy text is not a policy, and the result of parsing it is used without a test (zcontextcpwaters.cpp:325-332).

**C119 The parser manages the memory of its values**

* `C119_dropped_policy_violated`: **C119 (violated: a dropped policy leaks).** Deleting the tree of any accepted policy releases its root only: all other nodes stay, so that every policy with a gate leaks.
* `C119_rejected_policy_violated`: **C119 (violated: rejected policies leak).** The leaves of a gate stay when the rest of the text is rejected.
* `C119_reserved_name_violated`: **C119 (violated: reserved names leak).** The scanner does not release the string of a reserved name (zscanner.cpp:844-846), and the token has no destructor.

**C120 Containers release their components**

* `C120_overwrite_violated`: Setting a component again leaks the first object (zcontainer.cpp:84-88).
* `C120_delete_violated`: Deleting a component leaks its object (zcontainer.cpp:108-116).
* `C120_duplicate_violated`: Loading a blob in which a name comes twice leaks an object (zcontainer.cpp:208-219): anyone who sends keys or ciphertexts can make the receiver lose memory.
* `C120_buffers_violated`: Writing a container leaks a buffer for each group element (zelement_bp.cpp:540-560, 706-726, 851-871): after writing a container with one point `k` times and destroying it, `k` buffers are left.
* `C120_copy_violated`: The compiler's copy constructor copies the pointers (include/abe/zcontainer.h:47-86), so destroying a container and its copy releases every object twice, which is undefined.

**C121 Keys and ciphertexts take the memory of their components**

* `C121_repeated_violated`: A key for an attribute list that repeats an attribute leaks: if two of the attributes are equal and the key is generated, there is more in memory after the key is destroyed than before.
* `C121_encrypt_leaks_violated`: Every successful encryption into a new ciphertext leaks, whatever the keys, the input and the randomness: after the ciphertext is destroyed there is more in memory than before, the buffer of zelement_bp.cpp:775-783 and 851-871 at least. When the names of the ciphertext are different it is exactly that.
* `C121_reuse_violated`: Encrypting for a policy into a ciphertext that an encryption has filled leaks all three components that every ciphertext has, and the buffer, whatever the policies and the randomness.

**C122 Symmetric encryption releases its contexts, objects and buffers**

* `C122_copy_violated`: C122 violated for copies: a stream object can be copied (nothing forbids it, include/abe/zsymkey.h:122-146), and if it has a context, the destructors of the two release it twice.
* `C122_copied_context_violated`: C122 violated for copies of a context (include/abe/zcontextske.h:46-73 leaves copying to the compiler): the stream objects are deleted twice.
* `C122_tag_violated`: C122 violated: `decrypt` allocates the context (zsymkey.cpp:332) before it checks the length of the tag (344), and the error leaves it. So with any key, a message that anybody can write leaves one context each time it is received.

**C123 A context manages the memory of its keys and ciphertexts**

* `C123_decrypt_leaks_violated`: **C123** Decryption leaks: every plaintext that was returned has left something behind that the program can never release, so a process that goes on decrypting goes on growing. This holds for every history, whatever the names of the components.
* `C123_hash_key_violated`: **C123** `getHashKey` hands out a pointer into a key of the keystore (zcontextabe.cpp:141-150). After every history it can be followed, but after a successful `deleteKey` of the public key following it is a use after free.

**C124 Threads that follow the documentation can use the library at the same time**

* `C124_missing_context_violated`: **C124** A thread without an `OpenABEStateContext` follows a null pointer: `AssertLibInit` passes, because the variable it reads is global, but the thread has no context of RELIC. Whatever the other threads do, making a pairing object never ends well.
* `C124_failed_thread_violated`: **C124** An `OpenABEStateContext` whose RELIC fails does not say so, and the next pairing object is undefined.
* `C124_init_violated`: **C124** Initialising the library is not safe: two threads that do it at the same time race for `gLibraryState`, and both can succeed, although the second of two calls is to be refused (C69).
* `C124_shutdown_violated`: **C124** Shutting down the library while another thread makes a pairing object is a data race.
* `C124_one_relic_violated`: **C124** When RELIC is not built for threads, following the documentation is a data race: two threads that make an `OpenABEStateContext` at the same time both initialise the same context of RELIC.

**C125 Places of tokens are right**

* `C125_places_violated`: The code violates C125 in two ways. Columns of the first line are five too large, because the tag is scanned with the text: here the second token of `a b` is said to begin in column 8. And a newline token is said to be on the line that it begins, in front of that line's first character: here in line 2, where there is nothing.
* `C125_overflow_violated`: The code violates C125 for long texts: a name of 2^31 - 1 letters makes the column counter, an `int`, overflow.

**C126 Syntax errors point at the first token that cannot stand there**

* `C126_silent_violated`: The code violates C126: the grammar's action for a number that does not fit its width gives up without a word.
* `C126_expected_violated`: The code violates C126: what is said to be expected is not all that could follow. Reductions without looking at the next token have been made before the error is found. For `(a b` the message names `or`, `and` and `)`, but `<` could follow `(a` as well.

**C127 The size of a policy and the depth of recursion over it are bounded by its text**

* `C127_deep_policy_violated`: **C127 (violated: deep policies exhaust the stack).** For any size of the call stack, a text of five bytes for each frame parses to a policy that can neither be printed nor copied: nothing limits the depth of a policy, and these two functions call themselves for each level.

**C129 Only dates that exist are accepted, and they mean the day that is written**

* `C129_before_1970_violated`: **The code violates C129**: the test for dates before 1970 has no effect (zdriver.cpp:603-605), and 1 January 1960 is after 1 January 2020: in every POSIX zone within a day of UTC the policy `x > Jan 1, 2020` is satisfied by the list `|x = Jan 1, 1960`.
* `C129_impossible_violated`: The code violates C129: the answer of the test is not used. In every fixed time zone the policy `x = Feb 30, 2021`, whose date the test rejects, is accepted and satisfied by the list `|x = Mar 2, 2021`.
* `C129_range_violated`: And a range whose first date does not exist moves to another month: the policy `x = Feb 30-31, 2021` is satisfied by the list `|x = Mar 20, 2021`, in every fixed time zone, although 31 February counts to 3 March.

**C130 Secrets do not stay in memory after use**

* `C130_longer_violated`: The code violates C130: when a key of 16 bytes is replaced by one of 32, the memory of the old key is released without being wiped.
* `C130_shorter_violated`: And when a key of 32 bytes is replaced by one of 16, the destructor wipes 16 bytes only: the second half of the old key stays.
* `C130_generated_violated`: A generated key stays in the memory of the function that generates it.
* `C130_encrypt_violated`: The code violates C130: every encryption leaves its session key in memory, and with what is left the ciphertext can be decrypted. For both schemes, all keys, policies, attribute lists and messages: bytes that can be read in the blocks left give the plaintext back.
* `C130_decrypt_violated`: And so does every decryption that gets as far as deriving the session key.
* `C130_cipher_key_violated`: The code violates C130: the destructor of an authenticated encryption object wipes the additional data, which is public, and not the key.
* `C130_unauthentic_violated`: Decrypted bytes stay in memory, also when the tag is wrong and they must not be seen.

**C131 A decryption that reports no error returns what was encrypted**

* `C131_header_violated`: The code violates C131: the header of a ciphertext (library version, scheme, uid) can be replaced without effect.
* `C131_forgery_violated`: The code violates C131: whoever knows the plaintext of a ciphertext can turn the ciphertext into one of any other plaintext that is not longer, without any key. The alteration is computed from the masked message, the old and the new plaintext alone; every context and key that decrypts the one decrypts the other.
* `C131_attributes_violated`: The code violates C131: attributes can be taken off a key-policy ciphertext. Every key whose policy is satisfied by the attributes that are left decrypts to the same plaintext, so what the ciphertext says about its message can be falsified.
* `C131_cp_other_authority_violated`: The code violates C131: decryption with a key of another authority reports no error. For any two authorities, a key of the one for attributes that satisfy the policy of a ciphertext of the other gives some plaintext of the same length; it is right only if the mask of another session key happens to be the same.
* `C131_kp_other_authority_violated`: Key-policy: the same.

**C132 A ciphertext tells nothing about its message but the length**

* `C132_long_violated`: The code violates C132: longer messages are not hidden. For every length above 8192 there are two messages of this length whose ciphertexts are never the same, whatever the hash function, the session keys and the random values; anybody can tell which of the two was encrypted.

**C133 What can be seen of work on secret bytes depends only on their lengths**

* `C133_exported_length_violated`: Exported secrets are not of constant size: `ZP::serialize` leaves out leading zero bytes. Of two key-policy setups whose secret exponents lie on different sides of a power of 256, the exported master secret keys have different lengths, so that the length of a stored or encrypted key says how large its exponent is.

**C134 Sizes of masks and of derived keys are computed exactly**

* `C134_stack_violated`: Messages need room on the stack: a message of 8 MiB or more (and less than 4 GiB) cannot be encrypted with a stack of 8 MiB; it is undefined, in practice the process ends. Ciphertexts whose masked part is that long do the same to whoever decrypts them.
* `C134_repeated_mask_violated`: The length of a message is cut to 32 bits. From 4 GiB on the mask has the remaining length and is repeated, so that wherever two places differ by a multiple of it, the masked bytes show the exclusive or of the bytes of the message.
* `C134_single_byte_violated`: A message of one byte more than 4 GiB is masked with a single byte: one byte of the message gives all of it.
* `C134_empty_mask_violated`: A message of exactly 4 GiB, or a multiple of it, has no mask: the remainder by its length 0 is undefined.

**C135 Session keys of the disabled chosen-ciphertext transform can be recovered**

* `C135_decapsulation_violated`: The code violates C135: the disabled decapsulation never succeeds. Whatever the ciphertext, the keys, the random values of the second encryption and what it leaves behind, no session key is returned: the ciphertexts are compared with an `operator==` for which byte strings are never equal, and every ciphertext that gets that far has one.
* `C135_decryption_violated`: The code violates C135: the disabled decryption returns no plaintext for any pair of ciphertexts.

**C136 A context can be used by several threads at once**

* `C136_standard_violated`: The code violates C136: the lookup of a key is `operator[]` of a map, which counts as a change of the map in the standard. So any two encryptions with the same context at the same time are a data race, even with the same key.
* `C136_unknown_id_violated`: The code violates C136: an encryption with an id that has no entry adds one, so it races with every other encryption, also where finding is only a read.
* `C136_unknown_key_violated`: The code violates C136: a decryption with an id that has no entry adds one, so it races with every other decryption, also where finding is only a read.
* `C136_setup_violated`: The code violates C136: the first two setups with a context, at the same time, both assign the pairing.
* `C136_keygen_violated`: The code violates C136: making a key while another thread decrypts with an existing one is a data race.
* `C136_mixed_params_violated`: The code violates C136: two threads that generate parameters under the same ids at the same time can both succeed, even if every access to the maps were atomic, and then the context holds the public parameters of one and the master secret key of the other. A single thread would be refused the second time.

**C137 Authenticated encryption handles messages of all lengths**

* `C137_prefix_violated`: The code violates C137: of a message of `2^32` bytes and `k` more, with `0 < k < 2^31 - 1` (or any multiple of `2^32` and `k`), only the first `k` bytes are encrypted. No error is reported, and decryption returns these `k` bytes as authentic.
* `C137_lost_violated`: The code violates C137: all messages of 2 GiB up to 4 GiB (less one byte each) get the same ciphertext, without an error; the message is lost. Decryption of this ciphertext fails, unless the tag of the empty message is also that of zeros.
* `C137_iv_violated`: Violated: without IV bytes, 12 bytes are read from the empty IV. An IV whose length is negative as an `int` counts with its first 12 bytes.
* `C137_undefined_violated`: The code violates C137: encryption is undefined (overflow of `int`) for messages of `2^31 - 1` bytes, and for messages of 2 GiB up to 4 GiB (reading past a buffer of 17 bytes) when the associated data is longer than that.
* `C137_aad_violated`: The code violates C137: associated data of 2 GiB up to 4 GiB is not authenticated at all. What was encrypted with one is accepted with any other.
* `C137_stack_violated`: The code violates C137: the output of an update is put on the stack. Blocks beyond it (8 MiB usually) are undefined.
* `C137_stream_prefix_violated`: The code violates C137: of a block of `2^32` bytes and `k` more only the first `k` bytes are encrypted, and the update reports success.

**C138 Recovery uses as few attributes as possible, and checkIfSatisfied reports how many**

* `C138_rows_violated`: Recovery does not use the fewest rows: however `std::sort` orders equal entries, for every number of attributes above two there is a policy of two conjunctions (of the shape the parser makes, with different attributes) for which recovery uses that many rows, though two of the attributes at hand satisfy it.
* `C138_reported_violated`: The reported number is not the number of leaves that are needed, it can be too small by any amount: with the attributes of a conjunction of `n + 2` of them, `checkIfSatisfied` reports 2 for `x and xx and … or y`, but every way of satisfying it, and recovery, uses `n + 2` leaves.
* `C138_too_large_violated`: The number can be too large as well: for `a or b or c` and the attribute `a`, 2 is reported and one row is used.
* `C138_order_violated`: Comparing reported numbers, as the search for the cheapest key does, prefers the more expensive policy: with the same attributes, one policy has the smaller number (2 against 3) and needs more rows (`n + 4` against 3).

**C139 Symmetric keys can be kept in a keystore beside keys of the schemes**

* `C139_kind_violated`: Asking for a symmetric key under the id of a secret key of a scheme is undefined instead of giving null.
* `C139_delete_violated`: `OpenABE_deleteSymmetricKey` never reports an error, so not for ids without a symmetric key either, and it removes the public parameters and the secret keys of schemes that have the id.
* `C139_export_violated`: Exporting a symmetric key gives the public key if one has the id, and otherwise bytes that do not depend on the key data; they are refused when loaded.
* `C139_empty_blob_violated`: Loading an empty blob reports success and replaces the key of that id by one without data.

**C140 What was read from any bytes can be written and read again**

* `C140_trailing_violated`: The code violates the wish that only the bytes that the library writes are accepted: bytes behind a ciphertext are ignored, whatever they are, so every ciphertext that can be read has others that are read as the same ciphertext.
* `C140_trailing_key_violated`: The code violates it for keys too: bytes behind a key are ignored.
* `C140_null_violated`: The code violates C140: there are bytes that load as a key without an error in every context with a known scheme identifier, and exporting this key follows a null pointer (zcontainer.cpp:135-144). A value that begins like a policy is parsed, and its copy is a null pointer because policies have no `clone` (include/lsss/zpolicy.h:143).
* `C140_nameless_violated`: The code violates C140: a byte that is no pack type where a name should stand gives a component without a name. Such a container is written without an error, and what was written is rejected.
* `C140_skipped_violated`: The code violates C140: components with the tags of master and secret keys are skipped. Bytes with nothing else are read as an empty container, which is written as no bytes, and these are rejected.
