{"id": "C01", "title": "Completeness of the private intersection", "statement": "After both clients have called setRawData, outsourced getBlindedData() to the cloud and B has sent A a client-computation request, B's getIntersection() contains every non-zero value that both clients passed to setRawData.", "quantifier": "all odd primes p, all data sets of values below 2^dataBits with dataBits < NumBits(p), all table sizes, all hash functions, all secrets in the range the request message can carry, all temporary keys, all contents of the pad cells, whenever the public evaluation points are pairwise distinct", "why_tests_cant": "a run samples one prime, one key, one pair of sets; the claim is an algebraic identity over every field and every set", "anchors": ["src/libeopsi/eopsiclient.cpp:EOPSIClient::receive,blind,delegationOutput,intersect", "src/libeopsi/eopsiserver.cpp:EOPSIServer::receive,intersectionOutput", "src/libeopsi/eopsiparty.cpp:EOPSIParty::computeTOrQ", "src/libeopsi/zzppoly.cpp:ZZpPolynomials::findIntersection"]}
{"id": "C02", "title": "Soundness of the private intersection", "statement": "Every value B's getIntersection() returns is the unpadding of a non-zero multiple of 2^pad that is a root, in some bucket, of omegaA*pA + omegaB*pB; if no such accidental root exists outside the two sets then getIntersection() is exactly the set of common non-zero values.", "quantifier": "all odd primes, data sets, keys, hash functions, pad cells", "why_tests_cant": "accidental roots have probability about 2^-pad, so a test will practically never see either side of the claim", "anchors": ["src/libeopsi/zzppoly.cpp:ZZpPolynomials::findIntersection", "src/libeopsi/eopsiclient.cpp:EOPSIClient::intersect"]}
{"id": "C03", "title": "The value 0 is never reported", "statement": "If the pad is at least one bit, getIntersection() never contains 0, even when both clients store 0.", "quantifier": "all fields, pads, data sets and factorisations", "why_tests_cant": "random test data practically never contains 0", "anchors": ["src/libeopsi/zzppoly.cpp:ZZpPolynomials::findIntersection", "src/libeopsi/ntlmiss.cpp:countLeadingZeros"]}
{"id": "C04", "title": "No value is reported twice for one bucket", "statement": "Within each bucket the reported values are pairwise distinct, even if the stored data contain repetitions (repeated roots).", "quantifier": "all polynomials, all factorisations, all data sets with repetitions", "why_tests_cant": "needs the uniqueness of irreducible factorisation for every polynomial", "anchors": ["src/libeopsi/zzppoly.cpp:ZZpPolynomials::findIntersection"]}
{"id": "C05", "title": "Blinding and masking cancel exactly", "statement": "The difference between the cloud's output t and the partner client's q equals omegaA*pA + omegaB*pB at every evaluation point; neither the clients' secrets nor the additive masks derived from the temporary key remain.", "quantifier": "all secrets, temporary keys, data, dimensions, hash functions, prime moduli", "why_tests_cant": "cancellation must hold cell by cell for every matrix size and key", "anchors": ["src/libeopsi/eopsiparty.cpp:EOPSIParty::computeTOrQ", "src/libeopsi/eopsiclient.cpp:EOPSIClient::blind,delegationOutput"]}
{"id": "C06", "title": "2*maxLoad+1 evaluation points are enough, and necessary", "statement": "With degree >= 2*height+1 distinct points, interpolating t-q gives back exactly the combined polynomial of each bucket (of degree 2*height, leading coefficient 2); with 2*height points or fewer it never does.", "quantifier": "all heights, fields of odd characteristic, distinct points, roots", "why_tests_cant": "a bound on every polynomial of every degree", "anchors": ["src/libeopsi/zzppoly.cpp:ZZpPolynomials::findIntersection", "src/test/eopsisimul.cpp:main (degree = 2*maxLoad + 1)"]}
{"id": "C07", "title": "Padding round trip", "statement": "For dataBits < NumBits(p), a non-zero value v < 2^dataBits that is padded, reduced modulo p, recovered as a root and unpadded is v again; distinct values stay distinct modulo p, and the padded value never wraps around the modulus.", "quantifier": "all moduli, bit sizes, values", "why_tests_cant": "arithmetic bound for every modulus size", "anchors": ["src/libeopsi/ntlmiss.cpp:zeroPad,countLeadingZeros", "src/libeopsi/eopsiclient.cpp:EOPSIClient::padSize,blind", "src/libeopsi/zzppoly.cpp:ZZpPolynomials::findIntersection"]}
{"id": "C08", "title": "dataBits >= field bits silently loses everything", "statement": "If dataBits >= NumBits(fieldsize) the pad size wraps around; the run does not fail, but no root is ever accepted and getIntersection() is always empty.", "quantifier": "all moduli, data and bit sizes with dataBits >= NumBits(fieldsize) (including the equality the simulator's argument check allows)", "why_tests_cant": "wrap-around at the boundary of an unchecked unsigned subtraction", "anchors": ["src/libeopsi/eopsiclient.cpp:EOPSIClient::padSize", "src/test/eopsisimul.cpp:main"]}
{"id": "C09", "title": "Order of arrival of the two halves does not matter", "statement": "Whether B receives the cloud's output first and the polynomial second, or the other way round, the resulting intersection is the same, and the first of the two alone computes nothing.", "quantifier": "all pairs of matrices, all states in which neither half is held yet", "why_tests_cant": "message interleaving", "anchors": ["src/libeopsi/eopsiclient.cpp:EOPSIClient::receive,intersect"]}
{"id": "C10", "title": "A second run on the same client object uses freed memory", "statement": "After an intersection has completed, the next output-computation or polynomial message that the same client accepts makes it read freed storage (undefined behaviour) instead of starting a new run, unless the client has served another client's computation request in between.", "quantifier": "all states after a completed run, all later messages of these two types", "why_tests_cant": "every later history; a use after free may go unnoticed when run", "anchors": ["src/libeopsi/eopsiclient.cpp:EOPSIClient::receive (delete [] t; delete [] q)"]}
{"id": "C11", "title": "A client that has helped cannot itself query afterwards", "statement": "Once client A has served a computation request of B and B's intersection has completed, the next cloud output that A accepts makes A use the polynomial matrix already freed by B.", "quantifier": "all completed runs, all later cloud outputs to A", "why_tests_cant": "history dependent aliasing between two objects", "anchors": ["src/libeopsi/eopsiclient.cpp:EOPSIClient::receive"]}
{"id": "C12", "title": "setRawData can be called only once per hash table", "statement": "After a successful setRawData every bucket is full, so any later setRawData with at least one element through the same hash table terminates the process with exit code 1.", "quantifier": "all first and second data sets, all clients sharing the table, all hash functions", "why_tests_cant": "quantifies over all histories of calls", "anchors": ["src/libeopsi/eopsiclient.cpp:EOPSIClient::setRawData,blind", "src/libeopsi/hashbuckets.hpp:HashBuckets::add,conceal"]}
{"id": "C13", "title": "Cloud request message round trip", "statement": "What a client packs into a cloud-computation request (own id, partner id, 128-bit key) is exactly what the server unpacks, and the reads stay inside the buffer.", "quantifier": "all NUL-free ids of any length, all keys below 2^128", "why_tests_cant": "every byte string and key", "anchors": ["src/libeopsi/eopsiclient.cpp:EOPSIClient::receive", "src/libeopsi/eopsiserver.cpp:EOPSIServer::receive"]}
{"id": "C14", "title": "Only three bytes of the partner's secret are understood", "statement": "The helping client recovers the requester's secret from the request message only if 2^8 <= secret < 2^24; a larger secret is silently reduced modulo 2^24, a smaller one makes it read beyond the message buffer.", "quantifier": "all NUL-free ids, all secrets", "why_tests_cant": "every secret size, including the library's own 12-byte default", "anchors": ["src/libeopsi/eopsiclient.cpp:EOPSIClient::receive (ZZFromBytes(otherSecretBytes, 3))", "src/test/eopsisimul.cpp:main"]}
{"id": "C15", "title": "The temporary key has exactly 128 bits", "statement": "The temporary key a client sends to the cloud is the first random draw with its top bit set; it always has exactly 128 bits and fills exactly the 16 bytes reserved for it.", "quantifier": "all sequences of random draws", "why_tests_cant": "rejection loop over every random sequence", "anchors": ["src/libeopsi/eopsiclient.cpp:EOPSIClient::receive"]}
{"id": "C16", "title": "Message handling always terminates, with nesting depth at most three", "statement": "Delivering any message to any party triggers at most three nested receive calls, whatever the authentication graph.", "quantifier": "all worlds, authentication graphs (including cyclic and mislabelled ones), messages", "why_tests_cant": "termination over every graph of parties", "anchors": ["src/libeopsi/eopsiclient.cpp:EOPSIClient::receive", "src/libeopsi/eopsiserver.cpp:EOPSIServer::receive", "src/libeopsi/eopsiparty.cpp:EOPSIParty::send"]}
{"id": "C17", "title": "Self-messaging is always rejected", "statement": "A party that receives a message carrying its own id throws ProtocolException and changes nothing.", "quantifier": "all parties, message types, payloads and states", "why_tests_cant": "all states and payloads", "anchors": ["src/libeopsi/eopsiclient.cpp:EOPSIClient::receive", "src/libeopsi/eopsiserver.cpp:EOPSIServer::receive"]}
{"id": "C18", "title": "The server rejects senders it has not authenticated", "statement": "A message whose party id the server has not authenticated is answered with ProtocolException and changes nothing.", "quantifier": "all server states, messages", "why_tests_cant": "all histories of authentication", "anchors": ["src/libeopsi/eopsiserver.cpp:EOPSIServer::isAuthorised,receive"]}
{"id": "C19", "title": "A client crashes on senders it has not authenticated", "statement": "A message whose party id a client has not authenticated (and which is not its own) is not rejected with an exception: the client dereferences a null pointer.", "quantifier": "all client states, messages of every type", "why_tests_cant": "all histories of authentication", "anchors": ["src/libeopsi/eopsiclient.cpp:EOPSIClient::isAuthorised"]}
{"id": "C20", "title": "Who may send what", "statement": "A client processes computation requests and polynomials only from authenticated clients and outputs only from authenticated servers; a server processes data and cloud requests only from authenticated clients; every other combination of sender type and message type is answered with ProtocolException and changes nothing.", "quantifier": "all sender types, message types, receiver classes and states", "why_tests_cant": "full decision table in every state", "anchors": ["src/libeopsi/eopsiclient.cpp:EOPSIClient::isAuthorised,receive", "src/libeopsi/eopsiserver.cpp:EOPSIServer::isAuthorised,receive"]}
{"id": "C21", "title": "Requests with a foreign id inside are rejected", "statement": "A computation request whose payload names another id than its sender's is answered with ProtocolException before anything is computed, stored or sent.", "quantifier": "all payloads, ids, states", "why_tests_cant": "all byte strings", "anchors": ["src/libeopsi/eopsiclient.cpp:EOPSIClient::receive", "src/libeopsi/eopsiserver.cpp:EOPSIServer::receive"]}
{"id": "C22", "title": "Authentication is monotone, idempotent and never reflexive", "statement": "After any sequence of authenticate calls hasAuthenticated(id) holds exactly for the ids authenticated so far other than the party's own; the latest party authenticated under an id is the one addressed; repeating calls changes nothing.", "quantifier": "all sequences of authenticate calls", "why_tests_cant": "all histories", "anchors": ["src/libeopsi/eopsiparty.cpp:EOPSIParty::authenticate,hasAuthenticated,getPartyById"]}
{"id": "C23", "title": "Server storage is last-writer-wins and isolated per client", "statement": "After any sequence of accepted outsourcing messages, the server holds for each client the message that client sent last; messages of other clients and rejected messages do not affect it.", "quantifier": "all sequences of messages to the server", "why_tests_cant": "all histories", "anchors": ["src/libeopsi/eopsiserver.cpp:EOPSIServer::receive"]}
{"id": "C24", "title": "The server keeps a reference, not a copy", "statement": "Changing the data of an outsourcing message object after it was accepted changes what later computations use.", "quantifier": "all stored messages and later changes", "why_tests_cant": "aliasing over all histories", "anchors": ["src/libeopsi/eopsiserver.cpp:EOPSIServer::receive (storedData[...] = msg)"]}
{"id": "C25", "title": "A request before outsourcing crashes the server", "statement": "A well-formed cloud request of an authenticated client makes the server dereference a null pointer whenever the requester or the partner has not outsourced data.", "quantifier": "all server states in which either entry is missing", "why_tests_cant": "all histories without the storing step", "anchors": ["src/libeopsi/eopsiserver.cpp:EOPSIServer::intersectionOutput"]}
{"id": "C26", "title": "The sender of a message is only what the message says", "statement": "The effect of send depends on the message and the receiver only: any object can send in any other party's name.", "quantifier": "all senders, receivers, messages, states", "why_tests_cant": "universally quantified pairs of senders", "anchors": ["src/libeopsi/eopsiparty.cpp:EOPSIParty::send"]}
{"id": "C27", "title": "Choice of the cloud", "statement": "A helping client contacts the authenticated party of server type with the lexicographically smallest id; if there is none the process exits with code 2.", "quantifier": "all authentication maps", "why_tests_cant": "all maps", "anchors": ["src/libeopsi/eopsiclient.cpp:EOPSIClient::receive"]}
{"id": "C28", "title": "add never overfills a bucket", "statement": "Starting from an empty table with a hash algorithm, after any sequence of add calls no bucket holds more than maxLoad elements; an add terminates the process exactly when the element's bucket is already full.", "quantifier": "all element sequences, hash functions, table sizes", "why_tests_cant": "all histories", "anchors": ["src/libeopsi/hashbuckets.hpp:HashBuckets::add"]}
{"id": "C29", "title": "addToBucket and a missing hash algorithm bypass the limit", "statement": "addToBucket with a valid index always succeeds, even on a full bucket, and an over-full bucket no longer stops add; without hash algorithm every element goes to bucket 0 with no limit.", "quantifier": "all tables and elements", "why_tests_cant": "all states beyond the limit", "anchors": ["src/libeopsi/hashbuckets.hpp:HashBuckets::addToBucket,add"]}
{"id": "C30", "title": "conceal fills every bucket to exactly maxLoad and keeps the data", "statement": "After conceal each bucket that was within its limit has exactly maxLoad elements, begins with the elements it had, and is marked exactly if it was empty (or marked before); a second conceal changes nothing.", "quantifier": "all tables, generators", "why_tests_cant": "all fill levels and table sizes", "anchors": ["src/libeopsi/hashbuckets.hpp:HashBuckets::conceal", "src/libeopsi/markedvector.hpp:MarkedVector"]}
{"id": "C31", "title": "Bucket contents are exactly the added elements with that index, in order", "statement": "After any successful sequence of add calls bucket i contains precisely the added elements whose digest, read as a little-endian number, is congruent to i modulo the number of buckets, in the order they were added; in particular equal elements always share a bucket.", "quantifier": "all element sequences, all deterministic hash functions, all table sizes", "why_tests_cant": "all histories; refinement to a simple specification", "anchors": ["src/libeopsi/hashbuckets.hpp:HashBuckets::add", "src/libeopsi/strint.cpp:StrInt::set,rem"]}
{"id": "C32", "title": "size() is always 0", "statement": "HashTable::size(), documented as the number of added elements, returns 0 after any sequence of operations.", "quantifier": "all operation sequences", "why_tests_cant": "all histories", "anchors": ["src/libeopsi/hashtable.hpp:HashTable::size"]}
{"id": "C33", "title": "Client and table must agree on the number of buckets", "statement": "If the client's length exceeds the table's, setRawData ends the process with exit code 1; if it is smaller, elements in the remaining buckets are absent from the outsourced data, so changing them does not change it.", "quantifier": "all lengths, data sets", "why_tests_cant": "all parameter combinations", "anchors": ["src/libeopsi/eopsiclient.cpp:EOPSIClient::blind", "src/libeopsi/hashtable.hpp:HashTable::getBucket"]}
{"id": "C34", "title": "StrInt::set reads bytes as a little-endian number", "statement": "After set(n, dim) with dim >= 1 the stored number is the sum of n[i]*256^i over the first min(dim, length) bytes, whatever was stored before; with dim = 0 the number becomes the content of an internal scratch cell. The constructor with a buffer of len >= 1 bytes and at least one cell gives the number of the first min(len, cells) bytes; without a buffer, without bytes or with 0 cells it gives 0.", "quantifier": "all byte strings, lengths and previous states", "why_tests_cant": "the pairwise summation must be right for every length", "anchors": ["src/libeopsi/strint.cpp:StrInt::set"]}
{"id": "C35", "title": "StrInt arithmetic", "statement": "After any sequence of set, inc and add operations toString/rem describe the exact natural number obtained by the same sequence on naturals, without overflow; rem(d) is below d for d > 0 and traps for d = 0.", "quantifier": "all operation sequences", "why_tests_cant": "all histories", "anchors": ["src/libeopsi/strint.cpp:StrInt::inc,add,rem,set"]}
{"id": "C36", "title": "StrInt::lsb, getByteSize and toBytes do not do what they document", "statement": "getByteSize returns the number of bits; toBytes therefore terminates the process for every number above 1; lsb reduces modulo 2^64-1 an internal cell which is not updated by inc or set(unsigned long). Only 0 and 1 are converted, into one byte each (0 without a buffer, and a null length pointer, are null dereferences).", "quantifier": "all stored numbers", "why_tests_cant": "every number above 1", "anchors": ["src/libeopsi/strint.cpp:StrInt::lsb,getByteSize,toBytes"]}
{"id": "C37", "title": "The pseudo-random function is deterministic and history independent", "statement": "generate(seed, index, bits) with bits >= 1 returns the same number whatever calls were made before on the same object, and always succeeds.", "quantifier": "all call histories, seeds, indices, bit sizes, hash functions", "why_tests_cant": "internal buffers are reused and resized across calls; every history matters", "anchors": ["src/libeopsi/zzprf.cpp:ZZPRF::generate"]}
{"id": "C38", "title": "Range of the pseudo-random function", "statement": "ZZPRF::generate(seed, index, bits) is below 2^bits for bits >= 1 and is the little-endian number of the first bits of the iterated digest chain; ZZpPRF::generate is that number for min(bits, NumBits(modulo)) bits, reduced modulo p.", "quantifier": "all seeds, indices, bit sizes", "why_tests_cant": "all bit sizes, including those not divisible by 8", "anchors": ["src/libeopsi/zzprf.cpp:ZZPRF::generate", "src/libeopsi/zzpprf.cpp:ZZpPRF::generate"]}
{"id": "C39", "title": "Different (seed, index) pairs never produce the same hash input", "statement": "The byte string hashed for (seed, index) determines index and the absolute value of seed.", "quantifier": "all integer seeds and all size_t indices", "why_tests_cant": "injectivity over an infinite domain", "anchors": ["src/libeopsi/zzprf.cpp:ZZPRF::generate"]}
{"id": "C40", "title": "No pseudo-random index is used twice in one computation", "statement": "With height <= degree, the indices used for masks, for omegaA and for omegaB in the computation of t or q are pairwise distinct; with height > degree some index is reused.", "quantifier": "all lengths, degrees, heights", "why_tests_cant": "all parameter choices", "anchors": ["src/libeopsi/eopsiparty.cpp:EOPSIParty::computeTOrQ,genOmega"]}
{"id": "C41", "title": "Automatic generation walks through the index space", "statement": "The k-th call of generate() without arguments returns the value of the seeded function for the one automatically chosen seed and index k; the seed is drawn once.", "quantifier": "all k", "why_tests_cant": "all histories", "anchors": ["src/libeopsi/prf.hpp:PseudoRandom::generate"]}
{"id": "C42", "title": "ZZPRF::generate without a bit size is unusable", "statement": "generate(seed, index) with bits = 0 shifts a byte by at least 32 (undefined behaviour) for every random draw above 24; ZZpPRF never reaches this case for a positive modulus.", "quantifier": "all random draws, seeds", "why_tests_cant": "depends on the random draw", "anchors": ["src/libeopsi/zzprf.cpp:ZZPRF::generate", "src/libeopsi/zzpprf.cpp:ZZpPRF::generate"]}
{"id": "C43", "title": "Only the secret modulo p matters", "statement": "Two clients whose secrets are congruent modulo p and who hold the same table contents produce identical blinded data.", "quantifier": "all secrets, moduli, data", "why_tests_cant": "all congruent pairs", "anchors": ["src/libeopsi/eopsiclient.cpp:EOPSIClient::blind"]}
{"id": "C44", "title": "All parties agree on the evaluation points", "statement": "Evaluation points depend only on the bit size of the field: any two parties with the same field bit size and degree obtain the same vector, at any time; once generated it never changes, whatever length is asked for later.", "quantifier": "all parties, histories of requests", "why_tests_cant": "all histories", "anchors": ["src/libeopsi/eopsiparty.cpp:EOPSIParty::getUnknowns,generateUnknowns"]}
{"id": "C45", "title": "Outsourced data hide the set perfectly under an ideal pad", "statement": "If the pad values were uniform, every outsourced matrix would be exactly equally likely for every data set; under one pad used twice, the difference of the two matrices is the difference of the unblinded ones.", "quantifier": "all data sets, all target matrices", "why_tests_cant": "a statement about all pads at once", "anchors": ["src/libeopsi/eopsiclient.cpp:EOPSIClient::blind"]}
{"id": "C46", "title": "Step-by-step and one-shot intersection agree", "statement": "interpolate, factorise, findIntersection() yields the same list as findIntersection(x, y, n) on a fresh object, and repeating the one-shot call on a used object gives the same result as on a fresh one.", "quantifier": "all inputs, factoring algorithms, numbers of polynomials", "why_tests_cant": "all inputs", "anchors": ["src/libeopsi/zzppoly.cpp:ZZpPolynomials"]}
{"id": "C47", "title": "Mixing the two interfaces dereferences missing factor storage", "statement": "interpolate with n > 0 polynomials followed by findIntersection(x, y, n) with the same n, without factorise in between, dereferences a null pointer; findIntersection() after interpolating more polynomials than were factorised reads out of bounds.", "quantifier": "all inputs and n", "why_tests_cant": "all call histories", "anchors": ["src/libeopsi/zzppoly.cpp:ZZpPolynomials::findIntersection"]}
{"id": "C48", "title": "The factoring algorithm does not influence the set found", "statement": "Any two correct factoring procedures (Berlekamp, Cantor-Zassenhaus, unknown selector) give the same reported values up to order.", "quantifier": "all polynomials, all correct factorisation procedures", "why_tests_cant": "all factor orders", "anchors": ["src/libeopsi/zzppoly.cpp:ZZpPolynomials::findIntersection,factorise"]}
{"id": "C49", "title": "Chronometer accounting", "statement": "After any sequence of chronometer calls, cumulativeBenchmark() without pauses is the sum of exactly those intervals that do not begin with a pause, and with pauses the time from the first to the last reading; with a cursor both end at that reading (at the last one of a name), and behind the last reading they are zero; for a clock counting whole microseconds running and paused time together are the total time from first to last reading.", "quantifier": "all call sequences, all clock readings", "why_tests_cant": "all histories", "anchors": ["src/libeopsi/simplebm.cpp:SimpleBenchmark"]}
{"id": "C50", "title": "A stopped chronometer is frozen", "statement": "After stop, any sequence of step, pause, cont and stop leaves all measurements unchanged; only start and reset change them.", "quantifier": "all call sequences", "why_tests_cant": "all histories", "anchors": ["src/libeopsi/simplebm.cpp:SimpleBenchmark::stop,step,pause,cont"]}
{"id": "C51", "title": "Minimum, maximum and average of the running intervals", "statement": "min() and max() are the least and greatest running interval and are attained, the average lies between them, for every history with at least two readings; there is then always at least one running interval.", "quantifier": "all call sequences with at least two readings", "why_tests_cant": "all histories", "anchors": ["src/libeopsi/simplebm.cpp:SimpleBenchmark::minOrMax,average,min,max"]}
{"id": "C52", "title": "Statistics that should include pauses always return 0", "statement": "average(false), variance(false), standardDeviation(false), min(false) and max(false) return 0 for every history.", "quantifier": "all histories", "why_tests_cant": "all histories", "anchors": ["src/libeopsi/simplebm.cpp:SimpleBenchmark::average,variance,max,min"]}
{"id": "C53", "title": "benchmark() with a single reading is out of bounds", "statement": "benchmark() (and benchmark with an unknown cursor name) reads before the beginning of the readings exactly when one reading has been taken; in every other state no access is out of bounds, for all cursors.", "quantifier": "all histories and cursors", "why_tests_cant": "all histories", "anchors": ["src/libeopsi/simplebm.cpp:SimpleBenchmark::benchmark,getNumericCursor"]}
{"id": "C54", "title": "MurmurHash3::hash reads beyond its input", "statement": "As the hash table calls it (no length argument), hashing any element reads memory beyond the end of its decimal string: the length passed on is four times the number of digits. With an explicit length the access is in bounds exactly if four times the selected length is at most the number of digits plus one. If the foreign memory is taken as given, the digest of an element of four or more digits depends on it, and for elements of eight or more digits it alone can produce every digest (so every bucket).", "quantifier": "all field elements, all explicit lengths, all contents of the memory behind the string", "why_tests_cant": "out-of-bounds reads usually go unnoticed; contents vary with the allocator", "anchors": ["src/libeopsi/murmurhash3.cpp:MurmurHash3::hash,murmurHash3_x64_128"]}
{"id": "C55", "title": "MurmurHash3 ignores most tail bytes", "statement": "Unless the length is congruent to 1 or 9 modulo 16, the 128-bit result depends only on the complete 16-byte blocks, the length and the seed; for 1 and 9 on one more byte. As the hash table calls it, all elements of at most three decimal digits with equally many digits collide.", "quantifier": "all inputs, lengths, seeds", "why_tests_cant": "all byte strings", "anchors": ["src/libeopsi/murmurhash3.cpp:MurmurHash3::murmurHash3_x64_128"]}
{"id": "C56", "title": "What the SHA table hash sees of an element", "statement": "As the hash table calls it, the SHA hash of an element is the digest of its complete decimal representation, so different elements are never hashed from the same input; with an explicit length l >= 1 it depends only on the first l decimal digits. In a table that uses it, every bucket holds exactly the added elements whose digest (of all decimal digits, as a little-endian number) is congruent to the bucket's number.", "quantifier": "all elements, all explicit lengths, all digest functions", "why_tests_cant": "all pairs of elements", "anchors": ["src/libeopsi/shazzp.cpp:SHAZZp::hash", "src/libeopsi/hashbuckets.hpp:HashBuckets::add"]}
{"id": "C57", "title": "The simulator's reference intersection is right", "statement": "For two arrays without internal repetitions intersect() returns exactly the common values, strictly increasing, with the right cardinality.", "quantifier": "all pairs of repetition-free arrays, any correct sorting", "why_tests_cant": "all inputs", "anchors": ["src/test/eopsisimul.cpp:intersect,join"]}
{"id": "C58", "title": "The reference intersection tolerates the repetitions the simulator creates", "statement": "For sets built as common ++ own, with each of the three parts repetition-free, intersect() still returns exactly the common values; an array with an unshared repetition makes it report a false member.", "quantifier": "all such triples of arrays", "why_tests_cant": "all inputs", "anchors": ["src/test/eopsisimul.cpp:intersect,join,main"]}
{"id": "C59", "title": "The correctness check of the simulator accepts exactly rearrangements", "statement": "checkIntersectionCorrectness(a, n, b) with repetition-free a returns true exactly if b is a permutation of a.", "quantifier": "all arrays and vectors", "why_tests_cant": "all inputs", "anchors": ["src/test/eopsisimul.cpp:checkIntersectionCorrectness"]}
{"id": "C60", "title": "randomData returns n distinct ascending values, if it returns", "statement": "For n >= 1 the result has exactly n strictly increasing values among those drawn; it never terminates if n > 2^bitsize.", "quantifier": "all n, bit sizes and random sequences", "why_tests_cant": "all random sequences, non-termination", "anchors": ["src/test/eopsisimul.cpp:randomData"]}
{"id": "C61", "title": "Bit and byte counting helpers", "statement": "log2(z) is the floor of the binary logarithm for z >= 1 (0 below); blocks and bytes are ceilings; bytes(z) is the least number of bytes that can hold z.", "quantifier": "all integers", "why_tests_cant": "all integers", "anchors": ["src/libeopsi/ntlmiss.cpp:log2,blocks,bytes"]}
{"id": "C62", "title": "zeroPadTo pads to one bit less than asked", "statement": "For nonzero z with fewer bits than padsize (below 2^32), zeroPadTo(z, padsize) has exactly padsize - 1 bits and is z shifted; 0 and numbers with at least padsize bits are unchanged.", "quantifier": "all z, padsize", "why_tests_cant": "all sizes", "anchors": ["src/libeopsi/ntlmiss.cpp:zeroPadTo"]}
{"id": "C63", "title": "The requested number of threads does not influence the result", "statement": "setRawData gives the same outcome for every nThreads argument.", "quantifier": "all thread counts, data, states, hardware concurrency values", "why_tests_cant": "all thread counts", "anchors": ["src/libeopsi/eopsiclient.cpp:EOPSIClient::blind"]}
{"id": "C64", "title": "The (disabled) thread partition never overruns but may skip rows", "statement": "The partition computed for n threads is contiguous, starts at 0 and never exceeds length; it covers all rows exactly if n divides length + 1 or length.", "quantifier": "all lengths and thread counts", "why_tests_cant": "all parameter values", "anchors": ["src/libeopsi/eopsiclient.cpp:EOPSIClient::blind", "src/test/bptest.cpp:main"]}
{"id": "C65", "title": "The Chernoff parameter search stops at the largest admissible load", "statement": "cherpars reports the table size for the largest mean load mu <= l whose bound meets the target, if there is one, otherwise that of mu = 1 although the target is missed; the printed Mu is one less than the mu used.", "quantifier": "all l >= 1 and all bound functions", "why_tests_cant": "loop over arbitrary bound functions", "anchors": ["src/test/cherpars.cpp:main"]}
{"id": "C66", "title": "zzrndgen writes what hbtest reads; small n divides by zero", "statement": "The file zzrndgen writes for n >= 10 is read back by hbtest as exactly the n generated numbers, all below 2^bits; for 1 <= n <= 9 generation divides by zero.", "quantifier": "all n, bits, generators", "why_tests_cant": "all sizes", "anchors": ["src/test/zzrndgen.cpp:main", "src/test/hbtest.cpp:main"]}
{"id": "C67", "title": "bptest blinds only evaluations at zero", "statement": "The vector of evaluation points in bptest has 2*(2*maxLoad+1) entries of which the first half are 0, so all blinded cells of a bucket carry the same polynomial value, that at 0.", "quantifier": "all tables, maxLoad, generators", "why_tests_cant": "all data", "anchors": ["src/test/bptest.cpp:main"]}
{"id": "C68", "title": "Message length", "statement": "length() of a message is the length given with the last setData, except that a null data pointer always gives the pointer size 8.", "quantifier": "all sequences of setters", "why_tests_cant": "all histories", "anchors": ["src/libeopsi/eopsimsg.cpp:EOPSIMessage::setData,length"]}
{"id": "C69", "title": "Fatal exceptions end the process when constructed", "statement": "Constructing an exception with the fatal flag terminates the process with its exit code before it can be caught; a non-fatal one never does; OutOfBoundException always uses exit code 1 and a non-empty message.", "quantifier": "all messages, flags and codes", "why_tests_cant": "all arguments", "anchors": ["src/libeopsi/exception.cpp:Exception::Exception,handleFatality", "src/libeopsi/outofboundex.cpp:OutOfBoundException"]}
{"id": "C70", "title": "printStats reports correct load statistics", "statement": "For every hash table with at least one bucket, the integer statistics printStats prints are right: the total is the number of stored elements, and the reported smallest and largest bucket sizes are attained in the reported buckets and bound all bucket sizes. For a table constructed with zero buckets it reads out of bounds.", "quantifier": "every table content, every number of buckets", "why_tests_cant": "The scan order and ties range over unboundedly many tables; a test only covers chosen loads.", "anchors": ["src/libeopsi/hashbuckets.hpp:HashBuckets::printStats"]}
{"id": "C71", "title": "Lowering the degree later outsources plain values", "statement": "If a client has generated its evaluation points and its degree is lowered afterwards, a successful setRawData outsources rows as long as the number of points, and every entry from column degree on is the plain value of the bucket's polynomial, without any blinding.", "quantifier": "all clients, states, data sets, degrees", "why_tests_cant": "all states in which the degree was lowered and all data", "anchors": ["src/libeopsi/eopsiclient.cpp:EOPSIClient::blind", "src/libeopsi/eopsiparty.cpp:EOPSIParty::setDegree,getUnknowns"]}
{"id": "C72", "title": "Variance divides by the number of all intervals", "statement": "variance() of a history whose running intervals are not negative and fit an unsigned long is the sum of the squared deviations of the running intervals from their mean, divided by the number of all intervals (pauses included), and standardDeviation() is its square root.", "quantifier": "all call sequences with at least two readings", "why_tests_cant": "all histories", "anchors": ["src/libeopsi/simplebm.cpp:SimpleBenchmark::variance,standardDeviation"]}
{"id": "C73", "title": "When the simulator says \"correct\"", "statement": "For every run on data common ++ own of fewer than NumBits(p) bits, each part repetition-free, the simulator's check of getIntersection() against its reference intersection succeeds if and only if no root of any row unpads to a value that is not common or that belongs to another bucket, and 0 is not common (or nothing is padded).", "quantifier": "all primes, prepared states, data sets, keys, hash functions, sorting functions", "why_tests_cant": "all data and keys; the simulator's oracle itself is what tests would rely on", "anchors": ["src/test/eopsisimul.cpp:main,intersect,checkIntersectionCorrectness", "src/libeopsi/eopsiclient.cpp:EOPSIClient::getIntersection"]}
{"id": "C74", "title": "polyfact's reported times are over exactly its parts", "statement": "Whatever the clock returns, after the n timed parts (step then pause) of one polyfact phase the chronometer's minimum, maximum, average and total are those of the n part durations and of nothing else: the untimed work between the parts never enters.", "quantifier": "all clocks and all numbers of parts >= 1", "why_tests_cant": "all clock readings and run lengths", "anchors": ["src/test/polyfact.cpp:main", "src/libeopsi/simplebm.cpp:SimpleBenchmark"]}
{"id": "C75", "title": "The simulator as a whole: its verdict and its clean-up", "statement": "For every prime, options with r <= n and plain values of fewer bits than the prime, drawn data whose padded values fit the hash tables, and a hash algorithm that computes a digest of its input: the simulator's main (create, authenticate, draw, outsource, request, check, clean up) returns; it prints \"correct\" if and only if no root of any row unpads to a value that is not common or that belongs to another bucket, and 0 is not common (or nothing is padded); at its end every array the protocol allocated has been released exactly once. With values of exactly as many bits as the prime (which the option check accepts) it returns too, but says \"correct\" only if nothing is common.", "quantifier": "all primes, options, random supplies, keys, hash functions, sorting functions", "why_tests_cant": "all options, primes and random draws; absence of leaks and double frees on every run", "anchors": ["src/test/eopsisimul.cpp:main,authentication,randomData,join,intersect,checkIntersectionCorrectness", "src/libeopsi/eopsiclient.cpp:EOPSIClient::~EOPSIClient"]}
{"id": "C76", "title": "How the simulator ends otherwise", "statement": "The simulator exits with code 1 before creating anything if r > n or the plain values have more bits than the prime, and exits with code 1 while outsourcing as soon as one of the two sets does not fit its table. As shipped (MurmurHash3 over the tables) every run with n >= 1 that gets past drawing its data reads outside an array while outsourcing Alice's set, so no run with n >= 1 ever reaches a verdict.", "quantifier": "all primes, options with n >= 1, random supplies", "why_tests_cant": "undefined behaviour on every input may look like success in any test", "anchors": ["src/test/eopsisimul.cpp:main", "src/libeopsi/hashbuckets.hpp:HashBuckets<T>::add", "src/libeopsi/murmurhash3.cpp:MurmurHash3::hash"]}
{"id": "C77", "title": "When MurmurHash3 is the published MurmurHash3", "statement": "The 128-bit digest of len bytes equals the published MurmurHash3_x64_128 of these bytes if and only if every byte behind the complete 16-byte blocks is 0, except the last one if there are exactly 1 or 9 of them. So at the interface, for an explicit length that stays in bounds, hash() gives the published digest of what it reads exactly if the number of selected decimal digits is a multiple of four.", "quantifier": "all byte strings, lengths, seeds; all field elements and in-bounds lengths", "why_tests_cant": "all inputs; a few test vectors (e.g. the empty string or whole blocks) agree", "anchors": ["src/libeopsi/murmurhash3.cpp:MurmurHash3::murmurHash3_x64_128,MurmurHash3::hash"]}
{"id": "C78", "title": "A SHA object has one digest buffer", "statement": "After any history of hash() calls on one SHA object, a call has returned null exactly if it was given a null array or length 0, and every pointer returned by any of the calls points at hashSize() bytes holding the digest of the input of the latest call that hashed anything (number and string: all of it for length 0, else at most len characters; array: exactly len bytes, out of bounds if it is shorter). hashSize() is 32 for SHA-256 and 20 for every other flavour, including the non-SHA one; name() of the string and array hashes is defined for SHA-1 only.", "quantifier": "all call histories, inputs, lengths, flavours, digest functions", "why_tests_cant": "all histories; aliasing of results; undefined pointer arithmetic", "anchors": ["src/libeopsi/sha.hpp:SHA<T>", "src/libeopsi/shabyte.cpp:SHAByteArray::hash", "src/libeopsi/shastr.cpp:SHAString::hash", "src/libeopsi/shazzp.cpp:SHAZZp::hash", "src/libeopsi/hashflavour.h:HashFlavour"]}
{"id": "C79", "title": "Bob learns only what is common to the two buckets (ideal key)", "statement": "The two matrices the querying client (Bob) holds when he starts to compute a result are a fixed function of: the values the pseudo-random function gives under the temporary key, the clients' pads, the public points and the contents of the buckets. If the key's values are replaced by independent uniform field elements, the joint distribution of the two matrices is the same for any two contents of Alice's buckets (with the same load) that agree in the elements they have in common with Bob's buckets, with multiplicity - whatever the pads. One of the two matrices alone is uniformly distributed whatever the data.", "quantifier": "all primes, numbers of rows, points, loads, bucket contents, pads; for the link to the code all reachable states in which a request is ready", "why_tests_cant": "equality of two distributions over all keys", "anchors": ["src/libeopsi/eopsiparty.cpp:EOPSIParty::computeTOrQ", "src/libeopsi/eopsiclient.cpp:EOPSIClient::intersect", "src/libeopsi/eopsiserver.cpp"]}
{"id": "C80", "title": "Probability of a false positive (ideal key)", "statement": "If the values of the pseudo-random function under the temporary key are replaced by independent uniform field elements (load at least 1), a field element that is not in both buckets of a row is a root of the polynomial the client interpolates for that row with probability exactly 1/p, and the probability that anything is reported that does not come from an element of both buckets is at most L * 2^(bits+1) / p. A session whose temporary key is outside this event reports exactly the unpadded elements that are in both buckets of some row.", "quantifier": "all odd primes, rows, loads, bucket contents, value widths; for the link to the code all prepared sessions", "why_tests_cant": "a probability over all keys; quantifies over all data", "anchors": ["src/libeopsi/eopsiparty.cpp:EOPSIParty::computeTOrQ", "src/libeopsi/eopsiclient.cpp:EOPSIClient::intersect"]}
{"id": "C81", "title": "What a client's table contains after outsourcing", "statement": "When setRawData of at least one value ends normally (table with a total hash algorithm), the table was empty before, and bucket j holds exactly the padded values that hash there, in the given order, followed by fillers up to the maximal load. The fillers are numbered through the whole table; filler n is the value of the field-valued pseudo-random function (as many bits as the modulus) for one seed and index n. The seed is the next value of rand() reduced modulo the prime; it is the only value consumed, and none is if no filler is needed.", "quantifier": "all reachable states, clients, data, tables with total hash algorithms, digests, random supplies", "why_tests_cant": "all data, table sizes, histories", "anchors": ["src/libeopsi/hashbuckets.hpp:HashBuckets<T>::conceal", "src/libeopsi/eopsiclient.cpp:EOPSIClient::setRawData,EOPSIClient::blind", "src/libeopsi/prf.hpp:PRF<T>::generate"]}
{"id": "C82", "title": "Probability that a session is not exact (ideal fillers and key)", "statement": "If fillers and key values are independent uniform field elements, the probability that two buckets of one row share an element that is not in the data of both is at most L*H^2/p, and the probability that this happens or that a root outside both buckets is reported is at most L*(H^2 + 2^(bits+1))/p. A session whose fillers (those of the two seeds drawn from rand(), see C81) and key are outside this event reports exactly the values both clients hold (0 only if nothing is padded).", "quantifier": "all odd primes, rows, loads, data, value widths; for the link to the code all prepared sessions", "why_tests_cant": "a probability over all fillers and keys, for all data", "anchors": ["src/libeopsi/hashbuckets.hpp:HashBuckets<T>::conceal", "src/libeopsi/eopsiparty.cpp:EOPSIParty::computeTOrQ", "src/libeopsi/eopsiclient.cpp:EOPSIClient::intersect"]}
{"id": "C83", "title": "A message object changes only by its own setters", "statement": "After any history of calls in which protocol exceptions are caught, the type and the sender's name of a message object are those of the last setType / setPartyId on this object; without a setData on it, its data pointer and length are unchanged. No delivery, by whichever party, changes a message object of the user. A new message has type unknown, no sender, no data and length 8.", "quantifier": "all histories, message objects, parties, contents", "why_tests_cant": "all histories, including deliveries that fail with an exception", "anchors": ["src/libeopsi/eopsimsg.cpp:EOPSIMessage", "src/libeopsi/eopsiclient.cpp:EOPSIClient::receive", "src/libeopsi/eopsiserver.cpp:EOPSIServer::receive"]}
{"id": "C84", "title": "A party object's getters return what its own last setters gave", "statement": "A new party's getters return what it was constructed with (a client has no data yet). After any history, getId, getType, the field size, the degree, the secret, the raw data and their width of a party are those given in the last call of the respective setter on this object (setRawData counts if the list is not empty); class, number of rows, height and table never change. No message, whoever sends it, changes any of these, and no call on another object does. Conversely getIntersection and the data a server stores change by deliveries only.", "quantifier": "all histories, parties, messages", "why_tests_cant": "all histories, hostile messages included", "anchors": ["src/libeopsi/eopsiparty.cpp:EOPSIParty", "src/libeopsi/eopsiclient.cpp:EOPSIClient", "src/libeopsi/eopsiserver.cpp:EOPSIServer"]}
{"id": "C85", "title": "A batch of polynomials under any history of calls", "statement": "After every history of interpolate, makeMonic, factorise, findIntersection() and findIntersection(x, y, n) on one ZZpPolynomials object that ends normally: getPadsize() is the value given to the constructor, size() is the number of current polynomials, and the result holds exactly the unpadded roots of the polynomials that had been factorised last when it was computed (the first size() of them; an empty result if nothing was factorised). interpolate, makeMonic and factorise do not touch the result last returned. Before the first interpolation makeMonic, factorise and findIntersection() do nothing and return an empty result. New values without factorise give the old result again. interpolate without scaling followed by makeMonic() is interpolate with scaling, in every case; makeMonic() may be called after any history, and calling it again changes nothing.", "quantifier": "all histories of calls, points, values, numbers of polynomials, pad sizes, factoring procedures", "why_tests_cant": "all interleavings of the five methods on one object, all polynomials", "anchors": ["src/libeopsi/zzppoly.cpp:ZZpPolynomials::interpolate,ZZpPolynomials::factorise,ZZpPolynomials::findIntersection", "src/libeopsi/zzppoly.h:ZZpPolynomials"]}
{"id": "C86", "title": "A session in a crowd", "statement": "While Alice and Bob, each in the documented order (set data, outsource to the cloud, Bob asks Alice when she has outsourced), make the calls of a session, other parties may make any number of other calls before, between and after them: create objects, authenticate, change their own parameters and data, outsource to any server including the same cloud, ask anybody but Bob for help in anybody's name but Bob's (also in Alice's name, also asking Alice). Whatever these calls are and however they are interleaved, no call of Alice and Bob fails, and Bob ends with the result of the session for a temporary key that is some draw of the generator; in particular no common non-zero value is lost. The session can always be completed as long as random numbers are supplied.", "quantifier": "all prepared sessions in all reachable states, all interleavings with all foreign calls, all sets, secrets, keys", "why_tests_cant": "unboundedly many foreign calls interleaved in all ways with the session, in all reachable states", "anchors": ["src/libeopsi/eopsiclient.cpp:EOPSIClient::receive,EOPSIClient::setRawData,EOPSIClient::blind,EOPSIClient::intersect", "src/libeopsi/eopsiserver.cpp:EOPSIServer::receive", "src/libeopsi/eopsiparty.cpp:EOPSIParty::send,EOPSIParty::authenticate"]}
{"id": "C87", "title": "Many sessions at one cloud", "statement": "Any number of sessions that share no client and no message object (they may share the cloud) can go on at the same time in one process: whatever the order of all their calls, every session runs as if it were alone, every session that has made all its calls has its correct result and keeps it while the others go on, and no call gets stuck.", "quantifier": "all families of separate prepared sessions, all interleavings, all reachable initial states", "why_tests_cant": "all interleavings of any number of sessions", "anchors": ["src/libeopsi/eopsiclient.cpp:EOPSIClient::receive,EOPSIClient::setRawData,EOPSIClient::intersect", "src/libeopsi/eopsiserver.cpp:EOPSIServer::receive"]}
{"id": "C88", "title": "What is taken from the random generators", "statement": "Apart from the factoring procedure's own use of NTL's generator: only sending a client's request asks NTL's generator for numbers, and then exactly until the first one that makes a 128-bit key; over any history no number is used for two keys, and there are at most as many keys as sends. Only setRawData takes a number from rand, at most one per client object in its whole life, which becomes the seed of that client's filler generator.", "quantifier": "all calls in all states, all histories, all random numbers", "why_tests_cant": "all histories of calls and all sequences of random numbers", "anchors": ["src/libeopsi/eopsiclient.cpp:EOPSIClient::receive,EOPSIClient::blind", "src/libeopsi/prf.hpp:PRF", "src/libeopsi/zzpprf.cpp:ZZpPRF::generate"]}
{"id": "C89", "title": "Outsourced data survive", "statement": "The blinded data of a client, and the bytes a user puts in a message, are never changed or released by the library behind the user's back: over any further history of calls, destructions of other objects and releases of other arrays they keep their contents, until the user releases them, destroys the client whose blinded data they are, or sends a message that carries them as a half of a result or as a cloud computation request.", "quantifier": "all reachable states including those where objects have been destroyed, all arrays not held as a half of a result, all histories of actions", "why_tests_cant": "all histories of calls, destructions and releases", "anchors": ["src/libeopsi/eopsiclient.cpp:EOPSIClient::~EOPSIClient,EOPSIClient::setRawData,EOPSIClient::receive", "src/libeopsi/eopsimsg.cpp:EOPSIMessage::~EOPSIMessage", "src/libeopsi/eopsiserver.cpp:EOPSIServer::receive"]}
{"id": "C90", "title": "Objects can be destroyed in any order", "statement": "A user who never releases a client's blinded data himself (nor sends them as a half of a result or as a cloud request) can at any moment, for instance after a complete session, destroy any set of existing parties, messages and tables in any order: no destructor fails, the final state does not depend on the order, and exactly these objects and the blinded data of the clients among them are gone. Destroying a client whose blinded data have been released otherwise is a double release, and only then does destroying an existing party fail.", "quantifier": "all histories of a careful user, all sets of objects, all orders", "why_tests_cant": "all histories and all orders of destruction", "anchors": ["src/libeopsi/eopsiclient.cpp:EOPSIClient::~EOPSIClient", "src/libeopsi/eopsiparty.cpp:EOPSIParty::~EOPSIParty", "src/libeopsi/eopsimsg.cpp:EOPSIMessage::~EOPSIMessage", "src/libeopsi/eopsiserver.cpp:EOPSIServer::~EOPSIServer", "src/libeopsi/hashbuckets.hpp:HashBuckets"]}
{"id": "C91", "title": "What needs an object to be alive", "statement": "When a client is destroyed its blinded data are gone for ever, also for the servers to which it has outsourced them: the next cloud request that needs them reads released memory. The same holds when the message object that carried the data is destroyed: the server keeps a pointer to it. A message in the name of an authenticated party that has been destroyed, a message to a destroyed party, and a request to a helper that has authenticated a destroyed party before (in the order of ids) every living server, are undefined behaviour.", "quantifier": "all states and all requests of the described kinds; all sessions in which both have outsourced", "why_tests_cant": "undefined behaviour need not show in a test run; all states and later histories", "anchors": ["src/libeopsi/eopsiclient.cpp:EOPSIClient::~EOPSIClient,EOPSIClient::receive,EOPSIClient::isAuthorised", "src/libeopsi/eopsiserver.cpp:EOPSIServer::receive", "src/libeopsi/eopsiparty.cpp:EOPSIParty::getPartyById"]}
{"id": "C92", "title": "The factorisation benchmark", "statement": "polyfact completes for every prime, seed, number of experiments and degree if -q is given or there are at least 10 experiments; the polynomial of experiment j is the product of the linear factors of the values of the generator for indices j*degree .. j*degree+degree-1, and its factorisation lists exactly the linear factors of these roots, each once, with the number of times the root was drawn. Without -q it shows ceil(n / (n/10)) dots, between 10 and 19, and with 1 to 9 experiments divides by zero in the first round.", "quantifier": "all primes, seeds, hash functions, factoring procedures (orders of factors), numbers of experiments and degrees", "why_tests_cant": "all primes, seeds and degrees; the order of factors NTL returns is not specified", "anchors": ["src/test/polyfact.cpp:main", "src/libeopsi/zzpprf.cpp:ZZpPRF::generate"]}
{"id": "C93", "title": "The blinded polynomial benchmark", "statement": "From a file that zzrndgen wrote, bptest reads exactly the numbers written, each shifted by NumBits(p) bits modulo p (distinct numbers below an odd prime stay distinct). With a hash function that gives every element a digest it exits with status 1 if some bucket gets more than maxLoad numbers and otherwise completes: row i consists of 2*maxLoad+1 blinded evaluations at 0 and 2*maxLoad+1 plain evaluations at the generated points of the polynomial whose roots are the numbers of bucket i and its fillers, consecutive values of the generator for the one seed taken from rand(). With the default hash function every nonempty file makes it read outside an array.", "quantifier": "all primes, files, numbers of buckets and loads, hash functions, draws", "why_tests_cant": "all inputs; the out-of-bounds read need not show in a test run", "anchors": ["src/test/bptest.cpp:main", "src/test/zzrndgen.cpp:main", "src/libeopsi/hashbuckets.hpp:HashBuckets::conceal", "src/libeopsi/zzpprf.cpp:ZZpPRF::generate"]}
{"id": "C94", "title": "Generator objects own their buffers", "statement": "However many ZZPRF and ZZpPRF objects are made, used and destroyed in any interleaving, as long as none is copied and each is used during its life only (with a nonzero number of bits, or a nonzero modulus), no call touches released memory, every generate returns the same function of its seed, index and bits whatever the other objects did, and once all objects are destroyed no memory is left. A program that copies or assigns a generator, or makes a ZZpPRF from an existing ZZPRF, and destroys all its generators has undefined behaviour. Until then the two owners give right values while no call needs more bytes than earlier calls on the original; the first call that needs more is still right, but then (and after destroying one owner) every call on the other owner and its destruction are undefined behaviour.", "quantifier": "all programs (sequences of constructions, copies, assignments, calls, destructions), all numbers of objects, seeds, indices, bits and moduli", "why_tests_cant": "all interleavings; use of released memory usually shows no symptom", "anchors": ["src/libeopsi/zzprf.cpp:ZZPRF::generate", "src/libeopsi/zzprf.cpp:ZZPRF::~ZZPRF", "src/libeopsi/zzpprf.cpp:ZZpPRF::ZZpPRF", "src/libeopsi/sha.hpp:SHA::~SHA"]}
{"id": "C95", "title": "What does not depend on the clients' sets", "statement": "Run the same program twice, with the same results of NTL's generator, and change only the elements and the number of elements passed to setRawData (not the stated size in bits; both sets nonempty). As long as neither process ends, every call throws or returns alike in both runs, and afterwards everything but the sets and what is computed from them is identical: objects, parameters, acquaintances, evaluation points, message objects, what servers store, every request with its names and temporary keys, the number and lengths of all vectors sent or stored, and every value of the vectors a helper computes for its polynomial message. Two sessions of prepared parties whose data fit both complete and are related in this way.", "quantifier": "all primes, histories of calls by any parties, pairs of data sets of any sizes, results of both generators", "why_tests_cant": "relates every pair of executions over all histories and all data; a test compares a few runs", "anchors": ["src/libeopsi/eopsiclient.cpp:EOPSIClient::receive", "src/libeopsi/eopsiclient.cpp:EOPSIClient::delegationOutput", "src/libeopsi/eopsiclient.cpp:EOPSIClient::blind", "src/libeopsi/eopsiserver.cpp:EOPSIServer::receive"]}
{"id": "C96", "title": "What getIntersection() can contain", "statement": "Whatever calls are made by whomever, forged messages included, the result of a party changes only by sending a message and only if the party is a client that has been given data. In a program that gives a client the parameters of the field and of L buckets and data of at most b bits with b + 1 < NumBits(p), getIntersection() never contains 0, contains only values of at most b + 1 bits, none of them more than L times, and is empty before the client's first data are set.", "quantifier": "all primes, histories of calls, messages with any contents, factorisations, random draws", "why_tests_cant": "all histories, including hostile messages", "anchors": ["src/libeopsi/eopsiclient.cpp:EOPSIClient::intersect", "src/libeopsi/eopsiclient.cpp:EOPSIClient::getIntersection", "src/libeopsi/zzppoly.cpp:ZZpPolynomials::findIntersection"]}
{"id": "C97", "title": "What a call that throws leaves behind", "statement": "Of all the calls of the library only send() can throw. A send() that throws has changed nothing, with two exceptions: a server has computed its reply to a request and the party the reply is for has refused it (then only the server's evaluation points, the server's own message object and one new array differ), or a client has helped a requester, the cloud's reply has been delivered, and the requester has refused the helper's polynomial (then the changes are exactly those of the helper's work and of the delivered reply). In every case the user's messages, the tables, all identities, keys, data, stored data and lists of acquaintances are as before, and as long as no client holds the second half of a result no result and no existing array has changed. An exception other than those by which a reply is refused (own message, unauthorised, between servers) means that nothing has changed. The first exception does occur: in a session in which the type of the cloud is changed before Bob asks it.", "quantifier": "all primes, digests and root finders, all calls in all states (reachable or not), all exceptions thrown", "why_tests_cant": "Exception safety is about every state in which some step can throw, and about every field of every object afterwards; a test observes a few getters after a few failures.", "anchors": ["src/libeopsi/eopsiparty.cpp:EOPSIParty::send", "src/libeopsi/eopsiclient.cpp:EOPSIClient::receive", "src/libeopsi/eopsiserver.cpp:EOPSIServer::receive"]}
{"id": "C98", "title": "Who together can undo the blinding", "statement": "(1) Whoever knows a client's secret modulo p can compute from the client's outsourced matrix exactly what is in each bucket of its table. (2) In a session, the cloud (which holds the helper's outsourced data and the temporary key) and the querying client (who holds the helper's matrix and his own secret) can together compute the content of every bucket of the helper's table. (3) The cloud and the helper can together compute the content of every bucket of the querying client's table, because the helper reads the client's secret in the request. (4) If the secrets of the two clients are congruent modulo p, the cloud alone can compute the difference of the polynomials of the two tables, and two rows of outsourced data are equal exactly if the two buckets hold the same elements. (5) A client constructed from the bytes of a secret without their number has the secret 0, whatever the bytes are; unless the program sets another secret, everybody can compute its table from its outsourced data.", "quantifier": "all primes, digests and root finders, all reachable states in which a session can start, all data that fit, all secrets (of at most 3 bytes for the querying client), all histories of other calls", "why_tests_cant": "That values held by different parties always determine the data is a statement about every key, secret and data set; a test sees that one matrix looks random.", "anchors": ["src/libeopsi/eopsiclient.cpp:EOPSIClient::EOPSIClient, EOPSIClient::delegationOutput", "src/libeopsi/eopsiclient.h:EOPSIClient", "src/libeopsi/eopsiserver.cpp:EOPSIServer::intersectionOutput"]}
{"id": "C99", "title": "The pads are biased, even with an ideal hash function", "statement": "The field-valued generator takes a number of as many bits as p from the hash and reduces it modulo p without rejecting numbers that are too large. If the digests of different inputs were independent and uniform, the numbers for different indices would be independent and uniform (for primes not longer than one digest), so the remainders below 2^b - p (b the number of bits of p) are exactly twice as likely as the others, and the statistical distance of a pad from uniform is exactly r(p-r)/(p 2^b) with r = 2^b - p. For this hash function the outsourced matrix of a client is a fixed matrix plus independent pads of this kind. For an odd prime the outsourced matrices of any two data sets with different unblinded matrices have different distributions (so the cloud does learn something statistically), but every outsourced matrix remains possible for every data set, and each entry changes the odds by a factor of at most 2.", "quantifier": "all primes (of at most 8*hashSize bits), secrets other than 4 and the filler seed modulo p, data, tables, digests for the other inputs, all matrices and events", "why_tests_cant": "A distribution over all hash functions and the difference of two distributions for every pair of data sets cannot be observed in runs.", "anchors": ["src/libeopsi/zzpprf.cpp:ZZpPRF::generate", "src/libeopsi/zzprf.cpp:ZZPRF::generate", "src/libeopsi/eopsiclient.cpp:EOPSIClient::blind"]}
{"id": "C100", "title": "Evaluation points that coincide", "statement": "The evaluation points are generated from a fixed seed without checking that they are distinct. If two of them coincide, both clients can outsource and the querying client can prepare its request, but sending it ends the process with NTL's error, whatever the sets, secrets and keys are (and, since the points depend only on the hash function, the number of bits of the field size, the prime and the degree, this is so in every run with these parameters). This happens always if the degree is larger than the prime. If the digests were independent and uniform, two given points would coincide with probability exactly (3*2^b - 2p)/4^b (b the number of bits of p), so n points are not distinct with probability at most n(n-1)/2 times this.", "quantifier": "all primes, hash functions, root finders, reachable states in which a session can start, data that fit, keys; for the probabilities all primes of at most 8*hashSize bits and all numbers of points up to 2^64", "why_tests_cant": "A test uses a few primes and degrees; for which parameters every session fails, and how likely such parameters are, is a statement about all of them.", "anchors": ["src/libeopsi/eopsiparty.cpp:EOPSIParty::generateUnknowns, EOPSIParty::getUnknowns", "src/libeopsi/zzppoly.cpp:ZZpPolynomials::findIntersection", "src/libeopsi/eopsiclient.cpp:EOPSIClient::intersect"]}
{"id": "C101", "title": "A session is exact, with an ideal hash function", "statement": "If the hash function is uniformly random on a finite set of inputs that contains those of the evaluation points, of the fillers and of the random polynomials of a session (and arbitrary elsewhere), the probability that the session - both clients outsource values of at most `bits` bits that fit into their tables, and Bob asks Alice - does not end with getIntersection() being exactly the set of the common values (0 only if nothing is padded) is at most (n(n-1)/2 + L*(H^2 + 2^(bits+1))) * 2/2^b, where n is the degree, L the number of buckets, H their load and b the number of bits of the prime. This covers that points coincide (the process ends), that fillers collide and that a wrong root is reported. The next two results of rand() must differ modulo p.", "quantifier": "all odd primes of at most 8*hashSize bits, states in which a session can start, tables, data that fit, keys, numbers of bits, root finders, finite sets of hash inputs", "why_tests_cant": "It is a statement about the probability over all hash functions; a test runs one.", "anchors": ["src/libeopsi/eopsiparty.cpp:EOPSIParty::generateUnknowns, EOPSIParty::computeTOrQ", "src/libeopsi/zzprf.cpp:ZZPRF::generate", "src/libeopsi/zzpprf.cpp:ZZpPRF::generate", "src/libeopsi/hashbuckets.hpp:HashBuckets::conceal", "src/libeopsi/eopsiclient.cpp:EOPSIClient::setRawData, EOPSIClient::receive, EOPSIClient::intersect"]}
{"id": "C102", "title": "What a cloud stores of several clients, with an ideal hash function", "statement": "If the hash function is uniformly random on the inputs of the pads of clients whose secrets differ modulo p (and arbitrary elsewhere), all the pads of all these clients are independent numbers of b bits reduced modulo p. When two such clients outsource to one cloud (secrets not congruent to 4, the seed of the evaluation points, nor to the seeds of the fillers), all the calls succeed and the matrices stored by the cloud for both clients together are fixed values plus these pads. So for any two choices of the clients' data, the probability of any event about all n stored values differs by at most 2n*r(p-r)/(p*2^b) with r = 2^b - p, and from that for uniform values by at most half of this.", "quantifier": "all primes of at most 8*hashSize bits, finite families of different secrets, states in which a session can start, data that fit, tables, hash functions outside the pads, events about the stored values", "why_tests_cant": "It is about the joint distribution over all hash functions of everything the cloud stores.", "anchors": ["src/libeopsi/eopsiclient.cpp:EOPSIClient::setRawData, EOPSIClient::blind", "src/libeopsi/eopsiserver.cpp:EOPSIServer::receive", "src/libeopsi/zzpprf.cpp:ZZpPRF::generate", "src/libeopsi/zzprf.cpp:ZZPRF::generate"]}
{"id": "C103", "title": "What Bob receives, with an ideal hash function", "statement": "If the hash function is uniformly random on the inputs under a temporary key (and arbitrary elsewhere; load at most the degree), the masks and the coefficients of the random polynomials of an exchange are independent numbers of b bits, reduced modulo p. In a session whose temporary key differs from the clients' secrets and the seeds of the fillers, the two matrices Bob holds when he starts to compute are then the function of C79 of such a key and of fixed points, pads and bucket contents (the data that belong there and fillers, as in the clients' tables). For two contents of Alice's buckets that have the same elements in common with Bob's, with multiplicity, the probability of any event about the two matrices differs by at most 2*L*(d+2H)*r(p-r)/(p*2^b), where L is the number of buckets, d the degree, H the load and r = 2^b - p.", "quantifier": "all primes of at most 8*hashSize bits, states in which a session can start, data that fit, temporary keys, tables, hash functions outside the inputs under the key, bucket contents, events about the two matrices", "why_tests_cant": "It is about the joint distribution over all hash functions of everything Bob receives.", "anchors": ["src/libeopsi/eopsiparty.cpp:EOPSIParty::computeTOrQ", "src/libeopsi/eopsiclient.cpp:EOPSIClient::receive, EOPSIClient::intersect", "src/libeopsi/eopsiserver.cpp:EOPSIServer::receive", "src/libeopsi/zzprf.cpp:ZZPRF::generate"]}
{"id": "C104", "title": "The command lines of the programs in src/test", "statement": "For every list of words: eopsisimul, bptest, polyfact and zzrndgen accept exactly the options documented with a positive (b, k, l, n, p) or non-negative (j, r, d) value, the value used is the last one given and otherwise the default, and eopsisimul additionally refuses r > n and p < b with exit status 1; every admissible choice of parameters has a command line, and text behind the digits is ignored; the first option that is not accepted ends the program with status 1 (status 2 for the hash SHA512 that is announced but missing, status 1 for -o of polyfact which its option string announces), but an option that is not known, or a missing value, makes every program read argv[63] beyond the end of argv unless at least 62 words were given; hbtest takes any number (zero or no number for k divides by zero; a negative one becomes huge), zzrndgen with n from 1 to 9 divides by zero, cherpars needs an exponent n below 64 and its default 1024 is not; no command line makes the simulator as shipped print a verdict.", "quantifier": "every list of words, every parameter value below 2^63, every text after a number, every program of src/test that has options, every hash seed, prime and random numbers (last clause)", "why_tests_cant": "the words are arbitrary; what an out-of-bounds read of argv or a conversion out of range does in one run does not show that it is undefined, and defaults/last-value-wins must hold for all combinations of options", "anchors": ["src/test/eopsisimul.cpp:main (219-297)", "src/test/hbtest.cpp:main (48-121)", "src/test/bptest.cpp:main (77-141)", "src/test/polyfact.cpp:main (43-81)", "src/test/zzrndgen.cpp:main (33-67)", "src/test/cherpars.cpp:main (25-93)", "src/test/eopsisimul.h:DEFAULT_N"]}
{"id": "C105", "title": "Who owns the memory of StrInt, HashBuckets and ZZpPolynomials", "statement": "In every program that makes, uses and destroys any number of StrInt, HashBuckets and ZZpPolynomials objects in any order and never copies or assigns one: no call uses or releases memory that is not there (no double free, no use after free), with one exception that is exactly characterised - findIntersection(x, y, n) on an object whose polynomials were interpolated with the same n > 0 but never factorised dereferences a null pointer; and when all objects are gone everything has been released except three blocks (the StrInt and its two arrays) for every time setHashAlgorithm gave an algorithm to a table that already had one. Because none of the classes defines a copy constructor or assignment, no program that copies or assigns a StrInt or a HashBuckets (from another object), whatever it does before and afterwards, can destroy all its objects without undefined behaviour; for ZZpPolynomials the same holds of copies after interpolate with n > 0 as long as nothing is assigned.", "quantifier": "every program: every sequence of constructions, calls, copies, assignments and destructions on any number of objects, every n, with or without hash algorithm", "why_tests_cant": "double frees and leaks depend on the order of calls over the whole life of several objects and are not observable without instrumentation; 'no continuation can repair a copy' ranges over all continuations", "anchors": ["src/libeopsi/strint.cpp:StrInt, ~StrInt", "src/libeopsi/strint.h:StrInt", "src/libeopsi/hashbuckets.hpp:HashBuckets, ~HashBuckets, setHashAlgorithm, add", "src/libeopsi/hashtable.hpp:HashTable", "src/libeopsi/zzppoly.cpp:interpolate, factorise, findIntersection, ~ZZpPolynomials", "src/libeopsi/zzppoly.h:ZZpPolynomials"]}
{"id": "C106", "title": "The statistics of a hash table, and hbtest as a program", "statement": "For every table with at least one bucket printStats(full) reports the number of buckets, the maximal load, the total, the fill percentage, minimum, maximum and average of the bucket sizes and lists exactly the sizes of all buckets (of the first 30 if there are 30 or more and full is false, followed by dots); but because deviations are stored in a size_t, the variance it prints is never greater than the variance, equals it exactly if the average is a whole number, and is 0 as soon as every size differs from the average by less than 1. hbtest with SHA1 or SHA256 on a file of numbers ends with exit status 1 exactly if more numbers (repetitions counted) belong to some bucket than the maximal load, otherwise it reports exactly the loads; the warning is printed exactly if n/k > maxLoad (integer division); with MurmurHash3, its default, it reads out of bounds for every file with at least one number; without the file it exits with 1, a file with bit size 0 aborts, k = 0 divides by zero. On a file written by zzrndgen the report is about the numbers generated.", "quantifier": "every table content and number of buckets; every command line of hbtest, every file content, both digests as arbitrary functions, every seed and number of generated numbers from 10", "why_tests_cant": "the truncation of deviations shows only for averages that are not whole; whether a file overfills a bucket depends on all the digests; out-of-bounds reads usually go unnoticed", "anchors": ["src/libeopsi/hashbuckets.hpp:printStats (184-230)", "src/test/hbtest.cpp:main", "src/test/zzrndgen.cpp:main", "src/libeopsi/murmurhash3.cpp:hash"]}
{"id": "C107", "title": "One helper for many querying clients", "statement": "A client who has set and outsourced her data once can be asked by any number of other clients: whatever the order in which she, the querying clients (each with message objects and data of their own, the last request of each after she has outsourced), the sessions of other helpers at the same or other clouds and calls of outsiders are interleaved, every session runs as if it were alone; every client who has made all calls has the result of the session with the helper's data and keeps it while others ask; no value common to both and different from 0 is lost (for bits below the bit size of the modulus); no call gets stuck, and all sessions can be completed as long as random numbers last. Answering one client does not use up or change what later clients are answered with.", "quantifier": "all families of prepared sessions in which any number share a helper, all interleavings of all their calls and foreign ones, all reachable initial states", "why_tests_cant": "all interleavings of any number of clients and helpers", "anchors": ["src/libeopsi/eopsiclient.cpp:EOPSIClient::receive,EOPSIClient::setRawData,EOPSIClient::intersect", "src/libeopsi/eopsiserver.cpp:EOPSIServer::receive", "src/libeopsi/eopsiparty.cpp:send"]}
{"id": "C108", "title": "A secret the helper understands can be searched by the cloud", "statement": "In every session in which the helper can read the querying client's secret from the request (three bytes), the cloud alone can compute, from the client's outsourced matrix and public values only, fewer than 2^24 tables one of which is exactly the client's table (its padded data and the fillers, bucket by bucket). The right one can be recognised: if the pads of different secrets are independent and uniform, then except with probability (N-1)/p^(L(D-H)) removing the pads of any of the other N-1 candidate secrets gives a matrix that is not the values of any table with H elements in each of the L buckets at the D points.", "quantifier": "all primes, digests, root finders and reachable states in which a session can start, all data that fit; for recognition all numbers of candidates, dimensions with H <= D, points, tables and the right secret, over all pads", "why_tests_cant": "a statement about everything the cloud could compute, for every secret, and a probability over ideal pads", "anchors": ["src/libeopsi/eopsiclient.cpp:EOPSIClient::receive,EOPSIClient::blind", "src/libeopsi/eopsiserver.cpp:EOPSIServer::receive", "src/test/eopsisimul.cpp:main"]}
{"id": "C109", "title": "Many queries, by colluding clients, teach only what is common (ideal keys)", "statement": "Any number of clients who share everything they receive ask the same helper one after the other, each with a table (and secret) chosen after seeing all earlier answers. If the temporary keys' values are independent and uniform, the joint distribution of all the matrices they ever hold is the same for any two tables of the helper (and any two secrets of the helper) that have, with multiplicity, the same elements in common with each table that is asked with. In particular asking any number of times with one table teaches nothing that one query does not.", "quantifier": "all primes, dimensions, points, adaptive strategies, numbers of queries, tables and pads", "why_tests_cant": "equality of probability distributions over all strategies", "anchors": ["src/libeopsi/eopsiclient.cpp:EOPSIClient::delegationOutput,EOPSIClient::receive", "src/libeopsi/eopsiserver.cpp:EOPSIServer::intersectionOutput"]}
{"id": "C110", "title": "Secrets outside the range the helper understands", "statement": "In a prepared session in which the querying client's secret is any integer: if its absolute value has fewer than nine bits, the request makes the helping client read beyond the request (undefined behaviour), whatever the data are. Otherwise the helper uses the three low bytes of the absolute value, and the querying client looks for the roots of distorted polynomials: in each bucket the polynomial of degree less than the number of points whose value at each point is the right one plus (pad for the secret minus pad for the number the helper took) times the value of the second factor; if one of them is zero the request ends the process, otherwise the session ends normally with exactly the unpaddings of their roots. If the secret and the number taken for it are congruent modulo the field size nothing is distorted and the result is that of C02. If the two sequences of pads are independent and uniform, the values of a distorted polynomial at any n elements that are no evaluation points (n + height at most the number of points) are independent and uniform: every common element is found with probability 1/p only.", "quantifier": "every odd prime, every integer secret, all sizes, sets, points, temporary keys, reachable states, digests and factorisations; every number of common elements", "why_tests_cant": "The simulator only draws secrets that are understood. A wrong secret gives no error, just a wrong result, and the claim is about all integers and a probability over all pads.", "anchors": ["src/libeopsi/eopsiclient.cpp:EOPSIClient::receive, delegationOutput, intersect", "src/test/eopsisimul.cpp:main"]}
{"id": "C111", "title": "The example program randomzzgen", "statement": "If the user types, one per line, any number of non-positive ints and then a positive int k, the program asks once for each, ignores everything after k and prints exactly ten lines: the numbers the generator gives for the first result of rand() as seed and the indices 0 to 9, each below 2^k, with its bit size. A number of 2^31 or more is taken for 2^31-1. If the input ends after a non-positive number, or something that is not a number is typed, or a number below -2^31, the program asks forever, even if a positive number follows. If the input is empty or consists of white space only, it uses a variable that has no value. Since srand is never called, the output depends on k alone for a given rand().", "quantifier": "every list of numbers typed, every k, every continuation of the input, every digest, every result of rand(), any number of rounds", "why_tests_cant": "The input is unbounded and the claim 'asks forever' is about all numbers of rounds; the numbers depend on all digests.", "anchors": ["res/examples/randomzzgen.cpp:main", "src/libeopsi/zzprf.cpp:ZZPRF::generate, randomSeed"]}
{"id": "C112", "title": "Conversions between arrays, vectors and text", "statement": "Both forms of vector2VecZZp give exactly the elements of the vector in order, whatever the target held. Both forms of array2VecZZp give the first dim elements, and read outside the array if dim exceeds its size; for a null pointer one form leaves the target as it was while the other returns an empty vector. printZZArray prints the first n elements in decimal between brackets, separated by commas, reads outside the array if n exceeds its size and dereferences a null pointer unless n is 0; two different sequences of integers are never printed alike.", "quantifier": "all element types and contents, all sizes, null and non-null arrays, all integers", "why_tests_cant": "Holds for arrays of every length and integers of every size; injectivity is about all pairs.", "anchors": ["src/libeopsi/ntlmiss.cpp:vector2VecZZp, array2VecZZp, printZZArray"]}
{"id": "C113", "title": "hbtest and bptest on any file", "statement": "On a file that begins with a bit size, a count n and integers (any white space, leading zeros, minus signs), hbtest uses the first n numbers modulo 2^bits and bptest the first n numbers; what follows is ignored. If numbers are missing, nobody notices: hbtest takes 0 for each missing one, bptest repeats the last number it has read, even if that is the bit size. So hbtest ends with status 1 if more numbers are missing than a bucket may hold. A file without its two header numbers makes the programs use variables that have no value, abort (bit size 0) or take the count as 0, as stated case by case. Header numbers that are negative wrap around, those of 2^64 or more become 2^64-1: if the count becomes 2^60 or more, both programs end with status 2; if the bit size becomes 2^63 or more, hbtest aborts. A file that cannot be opened: status 1.", "quantifier": "every file content (sequence of characters), every bit size, count and list of integers in it, every digest and every accepted command line", "why_tests_cant": "Files are arbitrary texts; the behaviour on truncated input must hold for every place of truncation.", "anchors": ["src/test/hbtest.cpp:main", "src/test/bptest.cpp:main"]}
{"id": "C114", "title": "bptest as a whole program", "statement": "With SHA-1 or SHA-256 and a prime of at least two bits, bptest exits with status 1 if more numbers belong to some bucket than it may hold; otherwise it prints the count, the warning exactly if n/k exceeds l, and seven times, each of them the time between the two clock readings around that part in whole microseconds, and their averages over numbers, buckets, points and evaluations. After that it releases with delete an array allocated with new[]: bptest never ends regularly, whatever its command line, file, clock or random numbers. With the default hash function it reads out of bounds as soon as there is a number; a one-bit prime aborts.", "quantifier": "every command line, file, clock (any sequence of readings), prime generator, digest and sequence of results of rand()", "why_tests_cant": "'Never ends regularly' is about all inputs; undefined behaviour such as a mismatched delete may go unnoticed in a test.", "anchors": ["src/test/bptest.cpp:main", "src/libeopsi/simplebm.cpp:step, benchmark"]}
{"id": "C115", "title": "polyfact as a whole program", "statement": "With a prime of at least two bits, and -q or at least ten experiments, polyfact ends regularly for every degree, has released all it allocated, and prints for the factorisations (without -q also for the generation) the average, minimum, maximum and total of the times of exactly those parts in whole microseconds; without -q it prints 10 to 19 dots. The deviation printed is computed with the divisor 2n-1: never greater than the standard deviation, and equal to it only for n = 1 or equal times. Without -q fewer than ten experiments divide by zero; a one-bit prime aborts.", "quantifier": "every accepted command line, every monotone clock, every prime generator, digest and factorisation order, every start time", "why_tests_cant": "Times differ in each run; the statement is about all clocks and all numbers of experiments.", "anchors": ["src/test/polyfact.cpp:main", "src/libeopsi/simplebm.cpp:variance, standardDeviation, average, min, max, cumulativeBenchmark"]}
{"id": "C116", "title": "From zzrndgen to hbtest and bptest", "statement": "For every accepted command line with at least ten numbers and a file that can be written, zzrndgen replaces this file and no other one, whatever it held, and hbtest and bptest, given this file, work on exactly the numbers generated, in order: hbtest's report describes their distribution, or it ends with status 1 exactly if one bucket would get too many; bptest prints their count and the bit size of the first number of the file, or ends with status 1. With 1 to 9 numbers zzrndgen divides by zero, with 0 it writes a file without numbers; a file that cannot be opened gives status 1.", "quantifier": "every command line of the three programs that agree on the file, every earlier content of the file system, every digest, every result of rand(); fewer than 2^60 numbers", "why_tests_cant": "The round trip must hold for all sizes, bit lengths and generated values, and for every previous content of the file.", "anchors": ["src/test/zzrndgen.cpp:main", "src/test/hbtest.cpp:main", "src/test/bptest.cpp:main"]}
{"id": "C117", "title": "A set outsourced twice under one secret", "statement": "Two clients (or the same user with two objects, in one process or in two) with secrets congruent modulo p, the same parameters and hash function call setRawData on two sets. From the two outsourced matrices and the public points alone anybody can tell, for every row, whether the two buckets have the same content; if not, fewer candidates than the maximal load can be computed that include every value the buckets have in common, in particular every padded value that is in both sets. If the two buckets differ in a single element, all the others are obtained exactly.", "quantifier": "every reachable state of both processes, every pair of sets, every secret, digest and hash function that computes, all parameters", "why_tests_cant": "It is a statement about what can be computed from the outsourced data, for all sets and keys.", "anchors": ["src/libeopsi/eopsiclient.cpp:setRawData, blind", "src/libeopsi/zzpprf.cpp:generate"]}
{"id": "C118", "title": "What the parties write to the terminal", "statement": "Writing to the terminal and measuring times change nothing else: every delivery of a message has the same result, and the same effect on all objects, as a program without output; no line is ever taken back, not even when the process crashes. An answered query writes exactly eleven lines: the helper writes the querier's secret (the number itself) with the querier's name, then the temporary key with the cloud's name; the cloud writes the temporary key; the querier writes the first value of each of the two matrices, whose difference is the value of the first combined polynomial at the first public point; the others are times and the size of the result. So whoever reads the terminal of the helper and has the querier's outsourced data obtains the querier's table. The lines of helper and cloud are the same whatever the two sets are. Storing data writes two names, the length and a time; loading data writes a name.", "quantifier": "every reachable state, every delivery, every clock and state of the chronometers that calls can produce; for the lines of a query every pair of sets, secret, key and parameters", "why_tests_cant": "That output has no influence is a statement about all executions, including those that crash; that a secret can be recovered from the output is one about all inputs.", "anchors": ["src/libeopsi/eopsiclient.cpp:receive, setRawData, intersect", "src/libeopsi/eopsiserver.cpp:receive", "src/libeopsi/eopsiparty.h:bm"]}
{"id": "C119", "title": "The times the parties print", "statement": "If the clock never goes back, all times printed while a query is answered are nonnegative; the times printed for cloud, receipt of the output, helper and search together do not exceed the duration of the query (the helper's chronometer is paused while the cloud works, no time is counted for two parties); the totals of the four parts of the search together do not exceed the printed time for all polynomials, and that does not exceed the time for finding the intersection, which includes the time of receipt. The averages, totals and deviations describe the durations of the part for each polynomial (the deviation with divisor 2n-1). A second search with the same ZZpPolynomials object leaves the chronometers unchanged: the times of the first search are reported again.", "quantifier": "every clock that never goes back, every number of buckets and every query that is answered; for the second search every number of polynomials", "why_tests_cant": "It must hold for every sequence of clock readings.", "anchors": ["src/libeopsi/eopsiclient.cpp:receive, intersect", "src/libeopsi/eopsiserver.cpp:receive", "src/libeopsi/zzppoly.cpp:findIntersection", "src/libeopsi/simplebm.cpp:cont, pause, stop, cumulativeBenchmark"]}
{"id": "C120", "title": "What the simulator writes, and what its times include", "statement": "The simulator's output and its chronometer have no influence on the result of the run: with or without them it ends in the same way with the same verdict, and no line is taken back. A run to the end writes exactly 32 lines: the size of the prime, the settings, the times for generating and blinding both sets and for outsourcing them, the number of elements common to the two sets, the eleven lines of the query (with Bob's secret 65536 and the temporary key in them), the verdict the program computes, and three times. If the clock never goes back, no time is negative and the phases together do not exceed the duration of the run; but the time printed for the protocol includes the time of the plain intersection with which the result is compared, and does not include the blinding.", "quantifier": "for the first part every state, option, prime, hash algorithm, sorting function and clock; for the lines every run in which the sets are drawn and fit into the tables, including values of as many bits as the prime; for the times every clock that never goes back", "why_tests_cant": "That output has no influence ranges over all executions, also those that end in an error; that one printed time includes another cannot be seen from numbers of one run.", "anchors": ["src/test/eopsisimul.cpp:main", "src/libeopsi/simplebm.cpp:SimpleBenchmark"]}
{"id": "C121", "title": "An empty set cannot take part", "statement": "setRawData with a null pointer or with an empty array changes nothing: the client still has no blinded data. If such a client outsources all the same, the server accepts and keeps the message. But every well-formed request to the server in which a client takes part whose message carries no data, as the one who asks or as the partner, never comes to an end, and neither does any query between clients that leads to such a request; in particular a complete session in which one of the two sets, or both, are empty ends with the server dereferencing a null pointer, instead of reporting an empty intersection.", "quantifier": "all client states for the first two parts; all reachable states in which the requests are well-formed and the server has at least one bucket and one column; all prepared sessions", "why_tests_cant": "The claim covers every state and every request, and says that no history leads to an answer.", "anchors": ["src/libeopsi/eopsiclient.cpp:EOPSIClient::setRawData", "src/libeopsi/eopsiserver.cpp:EOPSIServer::intersectionOutput", "src/libeopsi/eopsiparty.cpp:EOPSIParty::computeTOrQ"]}
{"id": "C122", "title": "Inputs count modulo p, and only small ones are reported", "statement": "setRawData checks neither the sign nor the size of the numbers it is given. In a complete session over any integers, with dataBits < NumBits(p), Bob's result contains every v with v*2^pad < p (v not 0 unless pad is 0; pad = NumBits(p)-dataBits-1) that is congruent modulo p to a number of Alice's and to a number of Bob's; and if no accidental root occurs, it contains exactly these. So numbers that differ by a multiple of p are taken for equal, although the sets have no element in common; values of dataBits bits, and some of dataBits+1 bits but none longer, can be reported; and a common negative number -k with 2k <= p is never reported when something is padded.", "quantifier": "all odd primes below 2^(2^63) in size, all lists of integers that fit into the tables, all hash functions, keys and pad cells, whenever the public points are distinct", "why_tests_cant": "It ranges over all integers and fields; a test sees single numbers, and the false positives only for numbers it happens to choose congruent.", "anchors": ["src/libeopsi/eopsiclient.cpp:EOPSIClient::setRawData", "src/libeopsi/ntlmiss.cpp:zeroPad", "src/libeopsi/zzppoly.cpp:ZZpPolynomials::findIntersection"]}
{"id": "C123", "title": "The parties must agree on the dimensions, and nothing checks it", "statement": "Each party object is constructed with its own number of buckets (length) and of evaluation points (degree); no message carries them and no call compares them. In a session of two clients and a server who know each other, once both clients have set their non-empty data, everything is accepted up to the query; the query then reads outside a matrix (undefined behaviour), whatever the data, unless the server's length and degree are the asking client's and the helping client's are at least as large. If these conditions hold, no read leaves a matrix and the query returns, or ends the process in the interpolation. More generally, for stored matrices of any shape: the query reads out of bounds unless both stored matrices have at least the server's rows and columns, and the server's and the helper's dimensions are at least the asking client's.", "quantifier": "all lengths, degrees, heights, data, hash tables, keys, secrets and reachable states", "why_tests_cant": "It ranges over all combinations of dimensions and all contents; a test sees single combinations, and an out-of-bounds read usually returns some value instead of failing.", "anchors": ["src/libeopsi/eopsiclient.cpp:EOPSIClient::intersect", "src/libeopsi/eopsiclient.cpp:EOPSIClient::delegationOutput", "src/libeopsi/eopsiserver.cpp:EOPSIServer::intersectionOutput", "src/libeopsi/eopsiparty.cpp:EOPSIParty::computeTOrQ"]}
{"id": "C124", "title": "Two clients with different hash functions silently lose common values", "statement": "If the HashBuckets of the two clients were created with different hash algorithms (same numbers of buckets and loads), a whole session - setRawData, outsourcing, the request, the result - still ends without any error. Bob's getIntersection() contains every non-zero value of both sets that the two algorithms put into the same bucket; and unless the combined polynomial of a bucket has an accidental root, it contains nothing else: every common value that the two algorithms put into different buckets is missing, up to two clients with the same set whose intersection is reported as empty.", "quantifier": "all pairs of hash algorithms, fields, dimensions, sets that fit, keys, fillers and reachable states of two clients and a server", "why_tests_cant": "No error is raised; which values are lost depends on both hash functions and on every value of the two sets.", "anchors": ["src/libeopsi/hashbuckets.hpp:add", "src/libeopsi/eopsiclient.cpp:setRawData", "src/libeopsi/eopsiclient.cpp:blind", "src/libeopsi/eopsiclient.cpp:intersect"]}
{"id": "C125", "title": "Two clients with different numbers of data bits compare fractions, not values", "statement": "If the two clients pass different numbers of bits to setRawData (bitsA and bitsB, both below the bit size of the field, and data within those bits), the session ends without any error, and Bob's getIntersection() contains his non-zero values v for which Alice holds an a with a / 2^bitsA = v / 2^bitsB; unless there are accidental roots it contains nothing else. So Bob is told values Alice does not have, and values both have are missing.", "quantifier": "all bitsA and bitsB, sets, fields, dimensions, keys, fillers and reachable states", "why_tests_cant": "No error is raised; the relation between the two sets must hold for all values and all pairs of bit sizes.", "anchors": ["src/libeopsi/eopsiclient.cpp:setRawData", "src/libeopsi/eopsiclient.cpp:intersect", "src/libeopsi/ntlmiss.cpp:zeroPad"]}
{"id": "C126", "title": "The bucket sizes of the tables need not equal the parties' height, nor each other", "statement": "The number of elements a HashBuckets bucket holds (its maxLoad) is set by the caller, separately from the height given to EOPSIParty, and nothing compares the two. As long as height + maxLoad is below the degree (the number of evaluation points) for both clients' tables, a session over tables of any two bucket sizes ends without error, Bob's getIntersection() contains every non-zero common value, and unless there are accidental roots nothing else.", "quantifier": "all bucket sizes of the two tables, heights, degrees, fields (with the field of two elements if the sizes differ), sets that fit, keys, fillers and reachable states", "why_tests_cant": "The relation between three independent parameters must hold for every choice, every set and every key; a test tries a few.", "anchors": ["src/libeopsi/hashbuckets.hpp:HashBuckets", "src/libeopsi/eopsiclient.cpp:setRawData", "src/libeopsi/eopsiclient.cpp:intersect", "src/libeopsi/eopsiparty.cpp:computeTOrQ"]}
{"id": "C127", "title": "Bob learns only common elements if the height is at least the bucket size; with a smaller height Alice's buckets leak", "statement": "Under an ideal temporary key: if the buckets of both tables have a size m up to the height of the parties, the joint distribution of the two matrices Bob holds depends only on the elements Alice's buckets share with his. In the other direction, whatever Bob has received in a session, at most p^(2 * height) contents of each bucket of Alice's are compatible with it and with his own bucket, however large the bucket size is (as long as height and bucket size together do not exceed the degree); with height 0 he can compute Alice's buckets completely. The parties accept such a height without any error.", "quantifier": "all fields, dimensions, bucket sizes, bucket contents, pads, keys and sessions", "why_tests_cant": "A statement about a probability distribution and about all possible explanations of what a party has received; no run shows it.", "anchors": ["src/libeopsi/eopsiparty.cpp:computeTOrQ", "src/libeopsi/eopsiclient.cpp:intersect", "src/libeopsi/hashbuckets.hpp:HashBuckets"]}
{"id": "C128", "title": "What a session computes with too few evaluation points", "statement": "The degree of the parties is only an argument; nothing requires 2 * height + 1. For every degree, Bob factors for each bucket the remainder of omegaA*pA + omegaB*pB modulo the product of all (X - point): the session ends the process if such a remainder is zero, and otherwise ends without an error with the unpadded roots of the remainders as getIntersection(). With one point too few (degree = 2 * height) and an odd prime, Bob's list for a bucket does not contain a common non-zero value of that bucket, unless the value is stored as one of the public evaluation points: nothing warns him that practically the whole intersection is missing.", "quantifier": "all degrees, heights, fields, sets that fit, keys, fillers, distinct points and reachable states", "why_tests_cant": "The result is a remainder of random polynomials; the loss has to be shown for every key and every set, and the exceptional cases (a zero remainder, a value that is a point) are too rare for tests.", "anchors": ["src/libeopsi/eopsiparty.cpp:computeTOrQ", "src/libeopsi/eopsiclient.cpp:intersect", "src/libeopsi/zzppoly.cpp:interpolate", "src/libeopsi/eopsiparty.h:EOPSIParty"]}
{"id": "C129", "title": "Of a field size only the number of bits matters", "statement": "The fieldsize given to the constructors of clients and servers, or to setFieldsize, is used only through its number of bits: all arithmetic takes place modulo the number NTL was initialised with. Replace the field sizes in any history of calls by others (prime or composite, positive or negative, equal to NTL's modulus or not) with the same numbers of bits: the process ends with the same fault, or every call returns or throws the same, and the final states are equal (messages, matrices, tables, stored data, intersections) but for the stored field sizes themselves. No call ever notices a field size that is not the modulus.", "quantifier": "all histories of public calls, all pairs of field sizes with equal numbers of bits, all moduli, random draws and reachable states", "why_tests_cant": "The claim relates pairs of whole histories for every choice of numbers; tests compare a few numbers on a few sessions.", "anchors": ["src/libeopsi/eopsiparty.cpp:setFieldsize", "src/libeopsi/eopsiparty.cpp:generateUnknowns", "src/libeopsi/eopsiclient.cpp:EOPSIClient", "src/libeopsi/zzpprf.cpp:generate", "src/libeopsi/eopsiserver.cpp:EOPSIServer"]}
{"id": "C130", "title": "The length of a message is never looked at", "statement": "The length given with the data of a message (setData) has no influence (except on a line the server prints when it stores data): in any two histories of public calls that differ only in the lengths given with message data, and from any two states that differ only in the lengths stored in message objects, corresponding calls both return, or both throw the same exception, or both end the process with the same fault, and the states afterwards still differ in those lengths only. So no receiver detects a message shorter (or longer) than its length claims.", "quantifier": "all histories of public calls, all lengths, all pairs of states that differ in lengths only, all random draws, all nested deliveries", "why_tests_cant": "The claim relates pairs of whole histories for every choice of lengths; tests compare a few lengths on a few messages.", "anchors": ["src/libeopsi/eopsimsg.cpp:length", "src/libeopsi/eopsiserver.cpp:receive", "src/libeopsi/eopsiclient.cpp:receive"]}
{"id": "C131", "title": "What malformed messages do to their receiver", "statement": "A cloud request of an authenticated client: bytes beginning with another NUL-ended name than the sender's are refused by an exception without any effect; all other bytes that are not the sender's name, a partner's name (each ended by NUL) and 16 more bytes make the server read behind the array; if the server returns normally, the bytes had that form, both clients had outsourced data and the partner was known. A request of an authenticated client to a client: a foreign name is refused likewise; bytes without NUL, or fewer than three bytes after the sender's name, end the process (by reading behind the array if a key can be drawn and there is a cloud to ask), and the receiver never returns normally for them. A request whose data is null, deleted or vectors, and a result or polynomial whose data is null, deleted, bytes or without a first value, end the process of the receiver by the corresponding undefined behaviour.", "quantifier": "all states, all receivers and senders, all bytes, all random draws", "why_tests_cant": "The claim covers every byte string and every state; undefined behaviour cannot be observed reliably by a test.", "anchors": ["src/libeopsi/eopsiserver.cpp:receive", "src/libeopsi/eopsiclient.cpp:receive"]}
{"id": "C132", "title": "The order in which a set is given does not matter", "statement": "Give the values of any setRawData calls of a history in another order (with the same multiplicities): the process ends with the same fault, or every call returns or throws the same; and afterwards all outsourced matrices, messages, stored data, results (getIntersection, in the same order), arrays and the states of the random generators are the same - only the clients' copies of their sets and the elements inside the buckets of their tables are ordered differently. In particular nothing that leaves a client depends on the order. Holds for tables without hash algorithm, with one that computes a digest of every element (SHA) and with one that fails in the same way for every element (MurmurHash3 as shipped).", "quantifier": "all histories of public calls, all sets, orders, primes, digests, factoring algorithms and random draws, all nested deliveries", "why_tests_cant": "The claim relates pairs of whole histories for every permutation of every set; tests compare a few orders.", "anchors": ["src/libeopsi/eopsiclient.cpp:setRawData", "src/libeopsi/eopsiclient.cpp:blind", "src/libeopsi/hashbuckets.hpp:add"]}
{"id": "C133", "title": "A querying client that outsources only its pads gets the helper's whole set", "statement": "Bob, whatever set he has loaded, puts an array of field elements of his own making into his outsourcing message before he queries. Then his session computes, for each bucket, the roots of the polynomial through the values alice's factor * alice's polynomial + bob's factor * (his array - his pads); nothing checks what he outsources. If the array is exactly the pads of his own secret, the session ends normally (with at least 2*height+1 distinct points, in any field), and getIntersection() is the unpadded elements of Alice's buckets plus unpadded roots of the random factor: every non-zero value of Alice's set is in it, whether or not Bob has it. Such an array exists for every secret.", "quantifier": "all prepared states, sets, dimensions, primes, digests, secrets, arrays, keys and random draws", "why_tests_cant": "A claim about all sets and all arrays an attacker can make; tests follow honest parties.", "anchors": ["src/libeopsi/eopsiserver.cpp:receive", "src/libeopsi/eopsiparty.cpp:computeTOrQ", "src/libeopsi/eopsiclient.cpp:intersect"]}
{"id": "C134", "title": "A helper that outsources only its pads makes everything look common", "statement": "If Alice, the client that is asked, outsources an array of her own making, Bob computes the roots of the polynomials through alice's factor * (her array - her pads) + bob's factor * bob's polynomial. If the array is exactly the pads of her own secret, the session ends normally and every non-zero value of Bob's set is in Bob's getIntersection(), whatever set Alice has loaded: Bob cannot tell this from a helper who has all his values.", "quantifier": "all prepared states, sets, dimensions, primes, digests, secrets, arrays, keys and random draws", "why_tests_cant": "A claim about all sets and all arrays an attacker can make; tests follow honest parties.", "anchors": ["src/libeopsi/eopsiserver.cpp:receive", "src/libeopsi/eopsiparty.cpp:computeTOrQ", "src/libeopsi/eopsiclient.cpp:intersect"]}
{"id": "C135", "title": "Two forged messages give a waiting client any result", "statement": "A client that has its data and its evaluation points, but has not received a polynomial yet, takes any message of type output that bears the id of a server it knows, and any message of type polynomial that bears the id of a client it knows, for the two halves of the answer to a request - also if it never made one, and whoever sends them. If the messages hold arrays t and q of field elements, the client factors, for each bucket, the polynomial through t - q at its evaluation points: if one of them is zero the process ends, otherwise both calls return, getIntersection() is the unpadded roots, and no other party's object changes. For every list of at most length*(degree-1) non-zero values of the client's number of data bits there are arrays (computable from the evaluation points) after which getIntersection() has exactly these values, whatever sets the parties hold.", "quantifier": "all states in which a client waits, all senders, known server and client ids, arrays, lists of values, dimensions, primes, digests", "why_tests_cant": "A claim about all results an attacker may wish for and all states; tests follow honest parties.", "anchors": ["src/libeopsi/eopsiclient.cpp:receive", "src/libeopsi/eopsiclient.cpp:isAuthorised", "src/libeopsi/eopsiclient.cpp:intersect", "src/libeopsi/eopsiparty.cpp:send"]}
{"id": "C136", "title": "A single forged half before a request: harmless as a result, fatal as a polynomial", "statement": "Two clients and a server are prepared and both clients' data are outsourced. Before Bob sends his request, anybody sends Bob one made-up message. If it is a message of type output that bears the server's id (any non-empty array), the session afterwards ends as it would have ended without the message: the same values in getIntersection(). If it is a message of type polynomial that bears the helper's id, with any array of length x degree field elements, and Bob has no first half yet, the session never ends normally: either the process ends while the server answers, or, when the helper's real polynomial arrives, Bob reads an array that he has deleted (undefined behaviour).", "quantifier": "all prepared states, senders, arrays, message objects, data that fit, keys, dimensions, odd primes (all primes for the second part), digests", "why_tests_cant": "Tests follow honest parties; the claim is about every array an attacker may send and every session after it.", "anchors": ["src/libeopsi/eopsiclient.cpp:receive", "src/libeopsi/eopsiclient.cpp:intersect", "src/libeopsi/eopsiserver.cpp:receive", "src/libeopsi/eopsiparty.cpp:send"]}
{"id": "C137", "title": "Digests as text", "statement": "readableDigest(d, n) is the text of the first n bytes of d: two upper-case hexadecimal digits per byte, more significant first, nothing else; there is exactly one such text for given bytes, and two arrays of n bytes have the same text only if they are equal. If the array has fewer than n bytes it is read out of bounds. Applied to the result of hash() of an object with its hashSize(), after any history of hashes, it gives the text of the whole digest of the last input (64 digits for SHA-256, 40 otherwise); for an empty byte array, whose hash() is a null pointer, the process dereferences null.", "quantifier": "all byte arrays and sizes; all digest functions of 20 and 32 bytes, flavours, histories of hashes, inputs", "why_tests_cant": "Tests print a few digests; injectivity and the out-of-bounds cases range over all arrays, the digest claim over all histories of an object with one shared buffer.", "anchors": ["src/libeopsi/hashalgorithm.hpp:readableDigest", "src/libeopsi/sha.hpp:hashSize", "src/libeopsi/shabyte.cpp:hash"]}
{"id": "C138", "title": "What requests leave in memory", "statement": "Whenever a client computation request is handled to its end (send returns), whatever data it carries, whoever sent it and in whatever reachable state, provided the asked cloud knows the requester's object under the requester's name and the names contain no NUL: exactly three arrays have been allocated (the message to the cloud, the two matrices) and all of them have been released; every other array keeps its contents; the requester had no first half of another result. A half of a result that a user sends himself and a client accepts is kept; if the other half is missing memory is unchanged, otherwise exactly the two halves, two different arrays, are released. So over any history of calls in which the user sends only outsourced data and requests of that kind, no array that existed is lost or changed, and the number of arrays in memory grows by exactly one per setRawData with a non-empty set and per array the user makes for a message: any number of intersections needs no more memory than none. A send that throws while no client holds a second half releases and changes nothing and leaves at most two new arrays behind for ever: none, except that it can be one if a server was sent a request for a cloud computation, and two if a client was sent a client computation request.", "quantifier": "all primes, digests, factorisations, reachable states, parties, parameters, data and names; histories of any length", "why_tests_cant": "A leak check sees one run; the claim is about every request in every reachable state and about histories of every length.", "anchors": ["src/libeopsi/eopsiclient.cpp:receive", "src/libeopsi/eopsiclient.cpp:intersect", "src/libeopsi/eopsiserver.cpp:receive"]}
{"id": "C139", "title": "An impostor under the helper's name", "statement": "Two clients and a server are prepared, both clients' data are outsourced and Bob has written his request for Alice. Then a server object bearing Alice's name (with any parameters) is created and Bob authenticates it; nothing else changes, and Alice is never told. Bob's request to the real Alice now always fails: she asks the cloud and computes, Bob accepts the cloud's reply and then refuses Alice's polynomial, because he looks up her type at the impostor; send() throws the 'not authorised' exception. However often he repeats the request, every send throws, getIntersection() stays as it was, he never holds a second half, no array that existed is changed or released, and every attempt leaves exactly two more arrays in memory that nobody will release.", "quantifier": "all primes, digests, root finders, reachable prepared states, sets that fit, impostor parameters, free references and numbers of repetitions for which the generator yields keys", "why_tests_cant": "The loss is per attempt and the refusal comes from another object than the one that is talked to; that every repetition fails in the same way and leaks the same amount is an induction over histories.", "anchors": ["src/libeopsi/eopsiparty.cpp:authenticate", "src/libeopsi/eopsiclient.cpp:isAuthorised", "src/libeopsi/eopsiclient.cpp:receive", "src/libeopsi/eopsiserver.cpp:receive"]}
{"id": "C140", "title": "What a batch of polynomials writes, and threads", "statement": "useThreads(n) and operator<< may be called anywhere, any number of times, on a machine with any number of cores: the object, its results and whether the history ends normally are those of the history without them. After every history on one ZZpPolynomials object that ends normally the texts on std::cerr and those of operator<< are determined by what was asked before each call alone: useThreads always says that it is not implemented; factorise complains (and does nothing) exactly if no polynomial has been made yet, otherwise warns exactly if the selector is neither PFA_CANZASS nor PFA_BERLEKAMP, as findIntersection(x, y, n) does; findIntersection() complains exactly if nothing has been factorised; operator<< says 'is empty!' or how many polynomials the last interpolation or one-shot call made. Neither values, nor factors, nor cores matter.", "quantifier": "all histories of interpolate, makeMonic, factorise, findIntersection, findIntersection(x, y, n), useThreads and <<, all selectors, numbers of cores, values and factorisation procedures", "why_tests_cant": "the warnings depend on the whole history, and the independence of thread numbers is a statement about all interleavings", "anchors": ["src/libeopsi/zzppoly.cpp:ZZpPolynomials::useThreads,ZZpPolynomials::factorise,operator<<", "src/libeopsi/zzppoly.h:PolynomialFactoringAlgorithm"]}
{"id": "C141", "title": "Numbers as text", "statement": "Every natural number has exactly one decimal notation (digits only, at least one, no leading zero, most significant first) and different numbers have different ones. It is what StrInt::toString() returns and << appends after any history of a StrInt, what << of a number writes in every file and on the terminal, and its characters are the bytes of a number that SHAZZp and MurmurHash3 hash when no length shortens them: two numbers are hashed as the same text only if they are equal.", "quantifier": "all numbers, all histories of a StrInt, all streams", "why_tests_cant": "all numbers, of any size; injectivity", "anchors": ["src/libeopsi/strint.cpp:toString,operator<<", "src/libeopsi/shazzp.cpp:hash", "src/libeopsi/murmurhash3.cpp:hash", "src/test/zzrndgen.cpp:main"]}
{"id": "C142", "title": "What a chronometer complains about", "statement": "After every history of calls and questions on one SimpleBenchmark object that ends normally, the object is what it would be without the questions, and the lines on std::cerr are determined by an automaton with five modes: each act writes at most one line. step(name) complains if the chronometer has no reading yet or is paused; pause complains if there is no reading; stop complains if it was never started or is stopped already, and about a name given in a pause; a question by name complains exactly if no reading of the present measurement has that name; average, variance, standardDeviation, max and min complain exactly if there are fewer than two readings or pauses are to be included (then always). Neither the lines nor the normal end depend on the clock. The history fails (out of bounds) exactly if the last interval is asked for, by number 0 or by any name, when there is exactly one reading. The complaint about a name given to the step that ends a pause is wrong: the name is recorded and can be asked for at once; after a stop, however, step and pause ignore their names without a word.", "quantifier": "all histories of start, step, pause, cont, stop, reset and of all questions, all names, all clock readings", "why_tests_cant": "the complaints depend on the whole history; independence of the clock ranges over all clocks", "anchors": ["src/libeopsi/simplebm.cpp:step,pause,stop,getNumericCursor,minOrMax,average,variance,standardDeviation,max,min,benchmark"]}
{"id": "C143", "title": "Any history of a hash table", "statement": "A HashBuckets object of at least one bucket is made with a hash algorithm or with none, and then setHashAlgorithm (with algorithms or null), add and addToBucket are called in any order. The process ends (exit code 1) exactly at the first act that adds, with an algorithm in use, an element whose bucket holds exactly maxLoad elements, or that names a bucket that does not exist; otherwise the history ends normally. Then every bucket holds, in order and unmarked, exactly what was put there: add puts an element where the algorithm in use at that moment - the last one given that was not null - sends it, into the first bucket if there is none yet; a later algorithm moves nothing. On std::cerr there is one warning for every null algorithm, the constructor's included, and one for every add without an algorithm in use, and nothing else.", "quantifier": "all element types, families of algorithms with total digests, numbers of buckets >= 1, loads, histories", "why_tests_cant": "all histories with changing algorithms", "anchors": ["src/libeopsi/hashbuckets.hpp:HashBuckets,setHashAlgorithm,add,addToBucket"]}
