{"id": "C01", "title": "Vector behaves like a sequence over every history", "statement": "Starting from an empty Vector, any sequence of push-back, emplace-back, pop-back, single insert, single erase, range erase, reserve and clear calls leaves exactly the elements (in order) that the same operations on a mathematical sequence would leave; size() is the number of those elements, size() never exceeds capacity(), and no call touches storage outside the allocation or reads an element that was never constructed.", "quantifier": "all element types and values, all operation sequences of any length, all positions within the vector, capacities reached by the default growth policy", "why_tests_cant": "Unit tests exercise a handful of short sequences; the claim ranges over unbounded histories, including every reallocation point.", "anchors": ["include/FlameIDE/Templates/Vector.hpp: pushBack, emplaceBack, popBack, insert, erase, reserve, clean, nextCapacity"]}
{"id": "C02", "title": "Appending to a Vector always completes", "statement": "pushBack/emplaceBack on any vector the API can produce returns (given that allocation succeeds) and leaves the vector one element longer with the new element last.", "quantifier": "all vectors obtainable through constructors, copies, reserve and appends; all elements; allocation success assumed", "why_tests_cant": "Non-termination depends on the exact capacity reached; tests would have to hit that capacity by luck and then hang.", "anchors": ["include/FlameIDE/Templates/Vector.hpp: pushBack, nextCapacity, reserve, copy constructor, initializer list constructor"]}
{"id": "C03", "title": "Assigning a Vector gives the target the source's contents", "statement": "After a = b for vectors (of possibly different allocator parameters), a holds exactly b's elements in order and size() == b.size().", "quantifier": "all target and source vectors", "why_tests_cant": "Depends on the relation between the target's capacity and the source's size for all pairs of sizes.", "anchors": ["include/FlameIDE/Templates/Vector.hpp: template operator= (lines 468-487)"]}
{"id": "C04", "title": "Vector resize and sized construction produce the requested size", "statement": "Vector(n).size() == n, and after v.resize(n) with n >= v.size() the vector has size n and keeps its old prefix.", "quantifier": "all n and all vectors", "why_tests_cant": "Boundary equality cases between n and capacity are unbounded.", "anchors": ["include/FlameIDE/Templates/Vector.hpp: Vector(SizeType), resize"]}
{"id": "C05", "title": "Fixed-capacity Array (vector mode) never overflows and behaves like a bounded sequence", "statement": "For every history of push-back, emplace-back, pop-back, insert, range insert, erase, range erase and clear on an Array<T, N, false>, the contents equal those of a list on which an append or insert that does not fit is ignored; size() <= N always and only storage of the array is touched.", "quantifier": "all capacities N, all element values, all operation sequences, all positions", "why_tests_cant": "The capacity N, the history and the positions are unbounded.", "anchors": ["include/FlameIDE/Templates/Array.hpp: StaticVector pushBack, emplaceBack, popBack, insert, erase, clean"]}
{"id": "C06", "title": "Range insert into a fixed-capacity Array is all-or-nothing, range append fills up to capacity", "statement": "insert(it, b, e) either inserts the entire range at the position (when it fits) or leaves the array unchanged; operator+=(range) appends the longest prefix that fits.", "quantifier": "all ranges, positions, capacities", "why_tests_cant": "Boundary rangeSize + size == capacity must hold for every pair of sizes.", "anchors": ["include/FlameIDE/Templates/Array.hpp: StaticVector::insert(range) 859-904, operator+=(Range) 615-622"]}
{"id": "C07", "title": "Array equality means same elements", "statement": "a == b for fixed-capacity Arrays is true exactly when both have the same size and pairwise equal elements.", "quantifier": "all pairs of arrays", "why_tests_cant": "Any pair of contents must be compared correctly; sampled pairs miss the wrong ones.", "anchors": ["include/FlameIDE/Templates/Array.hpp: StaticVector operator== 557-577, StaticArray operator== 1372-1391"]}
{"id": "C08", "title": "Copying a pure Array copies every element", "statement": "Copy construction, copy assignment and clone() of an Array<T, N, true> give an array whose i-th element equals the source's i-th element for every i < N.", "quantifier": "all N and all contents", "why_tests_cant": "Must hold for every index, size and content.", "anchors": ["include/FlameIDE/Templates/Array.hpp: StaticArray copy ctor, operator=, clone"]}
{"id": "C09", "title": "CircularArray is a bounded FIFO queue", "statement": "For every history of pushBack, range pushBack, popFront and clean on CircularArray<T, N>, the elements seen by iterating begin()..end() are those of a queue bounded by N in which a push on a full queue is ignored; size() is its length and 0 <= size() <= N; wrap-around never loses, duplicates or reorders elements.", "quantifier": "all N, all elements, all operation histories (any number of wrap-arounds)", "why_tests_cant": "Wrap-around positions depend on the whole history; all alignments of head and tail must be right.", "anchors": ["include/FlameIDE/Templates/CircularArray.hpp: pushBack, popFront, size, begin, end, clean"]}
{"id": "C10", "title": "Copies and const views of a CircularArray show its contents", "statement": "A copy of a circular array, the result of copy assignment, and const iteration (cbegin..cend) yield the same elements in the same order as non-const iteration of the original.", "quantifier": "all reachable circular arrays", "why_tests_cant": "Only wrong for histories in which elements were popped from the front.", "anchors": ["include/FlameIDE/Templates/CircularArray.hpp: cbegin, copy ctor, operator="]}
{"id": "C11", "title": "Circular iterator arithmetic is arithmetic modulo the ring size", "statement": "For an iterator over a ring of n slots: ++ and -- are mutually inverse, ++ applied k times equals += k, += k moves to position (p + k) mod n for every k >= 0, -= undoes +=, and the position always stays inside the ring.", "quantifier": "all ring sizes n >= 1, positions p < n, distances k", "why_tests_cant": "n, p and k are unbounded.", "anchors": ["include/FlameIDE/Templates/Iterator/Operators.hpp 475-533: circular ++, --, +=, -="]}
{"id": "C12", "title": "Indexing through a circular iterator agrees with moving it", "statement": "it[k] refers to the same slot as *(it + k) for every k within the ring.", "quantifier": "all ring sizes, positions and 0 <= k < ring size", "why_tests_cant": "Requires all wrap-around combinations.", "anchors": ["include/FlameIDE/Templates/Iterator/Operators.hpp 535-569"]}
{"id": "C13", "title": "Reverse iterators order positions as traversal visits them", "statement": "For reverse iterators a, b over one array: a < b exactly when a is visited strictly before b in the reverse traversal; >, <=, >= are consistent; += k / -= k move k steps along / against the traversal and b - a is the number of steps from a to b.", "quantifier": "all array positions and distances", "why_tests_cant": "Relational claim over every pair of positions.", "anchors": ["include/FlameIDE/Templates/Iterator/Operators.hpp 120-241"]}
{"id": "C14", "title": "List behaves like a sequence over every history", "statement": "Starting from an empty List, any history of pushBack, pushFront, emplace, insert, erase, popBack, popFront and clean gives the elements of the corresponding mathematical sequence, forwards and backwards, with no access through a null or freed node.", "quantifier": "all element values, operation histories of any length, all valid positions", "why_tests_cant": "Link-structure corruption shows only after particular histories; unbounded.", "anchors": ["include/FlameIDE/Templates/List.hpp: pushBack, pushFront, insert, popBack, popFront, erase, clean, size"]}
{"id": "C15", "title": "List copies and moves preserve contents", "statement": "Copying a list gives an equal, independent list; moving transfers the contents and leaves the source empty and usable; both also for the empty list.", "quantifier": "all lists including the empty one", "why_tests_cant": "Ranges over all contents and both empty/non-empty states.", "anchors": ["include/FlameIDE/Templates/List.hpp 366-459"]}
{"id": "C16", "title": "String stays NUL-terminated and in bounds while appending C strings", "statement": "For every history of construction from / appending of C strings, assignment from C strings, pop-back and single erase, data() holds the concatenated characters followed by NUL, length() is their number, capacity() > length() whenever storage exists, and no write falls outside the allocation.", "quantifier": "all strings of any length, all operation histories", "why_tests_cant": "Off-by-one overflows occur only at specific length/capacity relations.", "anchors": ["include/FlameIDE/Templates/String.hpp: pushBack(raw) 597-621, operator=(raw) 289-313, popBack, erase"]}
{"id": "C17", "title": "Appending a single character to a String is safe and completes", "statement": "pushBack(c) on any string returns, never writes outside the allocation, and appends exactly c.", "quantifier": "all strings obtainable via the API, all characters", "why_tests_cant": "Depends on exact capacity/length equality.", "anchors": ["include/FlameIDE/Templates/String.hpp: pushBack(const&) 565-578, pushBack(&&) 581-594"]}
{"id": "C18", "title": "Assigning one String to another copies it", "statement": "After a = b for strings, a equals b in length and characters, a is NUL-terminated inside its allocation, and b is unchanged; a = a leaves a unchanged.", "quantifier": "all pairs of strings", "why_tests_cant": "All length/capacity relations.", "anchors": ["include/FlameIDE/Templates/String.hpp: operator=(const Me&) 247-266"]}
{"id": "C19", "title": "String insert and erase behave like sequence insert and erase", "statement": "insert(position, character), insert(position, range), erase(position), erase(range) give the contents of the corresponding sequence operation, keep the terminator and always return.", "quantifier": "all strings, positions, inserted ranges", "why_tests_cant": "Unbounded sizes; the fitting / non-fitting branch must both be right.", "anchors": ["include/FlameIDE/Templates/String.hpp 634-790"]}
{"id": "C20", "title": "String concatenation contains both operands", "statement": "s1 + s2 and s1 += s2 for strings produce the characters of s1 followed by those of s2.", "quantifier": "all strings s1, s2", "why_tests_cant": "Quantifies over all contents.", "anchors": ["include/FlameIDE/Templates/String.hpp: operator+= 356-379, operator+ 847-852"]}
{"id": "C21", "title": "HybridVector behaves like a sequence across its storage switch", "statement": "For every history of push-back, pop-back, insert, erase and clear on HybridVector<T, N>, the contents are those of a mathematical sequence, whichever of the inline array or heap vector currently stores them.", "quantifier": "all inline capacities N, all histories, all positions", "why_tests_cant": "The switch between storages happens at history-dependent moments in both directions.", "anchors": ["include/FlameIDE/Templates/HybridVector.hpp: pushBack, popBack, insert, erase, useArray, useVector"]}
{"id": "C22", "title": "Byte-order conversion is reversible and exact", "statement": "Reversing bytes twice is the identity for 8/16/32/64-bit values and byte i of the result is byte n-1-i of the input; converting host to wire order and back returns the value for both wire orders and both host orders.", "quantifier": "all 2^8, 2^16, 2^32, 2^64 values, all order pairs", "why_tests_cant": "2^64 values cannot be enumerated.", "anchors": ["include/FlameIDE/Templates/ByteOrder.hpp 157-320"]}
{"id": "C23", "title": "Serialization round trip", "statement": "Serializing any sequence of integer values (plain or partial-width, big or little endian) into a large enough buffer and deserializing with the same sequence of types gives back the same values and the same total number of bytes; each write touches only its own bytes.", "quantifier": "all value sequences of any length, both byte orders, all partial widths and offsets", "why_tests_cant": "All values, all sequence lengths, all layouts.", "anchors": ["include/FlameIDE/Templates/Serialization/Serializer.hpp", "include/FlameIDE/Templates/Serialization/Deserializer.hpp", "include/FlameIDE/Templates/Serialization/SpecializedValue.hpp"]}
{"id": "C24", "title": "Partial-width values address exactly the requested bytes", "statement": "A specialized value of size s and offset o exposes exactly the s bytes that start o bytes after the most significant end (big endian order) of the value, in both orders, and never touches bytes outside the value when o + s <= sizeof.", "quantifier": "all values, sizes, offsets", "why_tests_cant": "All offset and size combinations on all values.", "anchors": ["include/FlameIDE/Templates/Serialization/SpecializedValue.hpp 340-505"]}
{"id": "C25", "title": "Integer to string conversion is the canonical decimal representation", "statement": "The text produced for an integer parses back to that integer, has no leading zero (except for 0 itself), has a minus sign exactly for negatives, and the computed buffer size is exactly the number of characters written.", "quantifier": "all 64-bit unsigned and signed integers", "why_tests_cant": "2^64 inputs; the extreme values matter.", "anchors": ["include/FlameIDE/Templates/StringConvertions.hpp 95-196"]}
{"id": "C26", "title": "Wide integers round-trip through primitive integers", "statement": "Assigning an unsigned primitive value to a WideInt that is at least as wide and converting back returns the same value; unused high bytes are zero; operator~ applied twice is the identity.", "quantifier": "all values, all wide-integer widths", "why_tests_cant": "Unbounded widths, 2^64 values.", "anchors": ["include/FlameIDE/Templates/WideInt.hpp 221-454, 800-808"]}
{"id": "C27", "title": "IPv4 address formatting and parsing are inverse", "statement": "Formatting any address with four octets 0..255 and parsing the text gives the same octets, and the text is the usual dotted decimal.", "quantifier": "all 2^32 addresses", "why_tests_cant": "2^32 addresses; wrong outputs only for certain digits.", "anchors": ["src/Os/Network/Ipv4.cpp: convertIp both directions"]}
{"id": "C28", "title": "IPv4 parsing accepts exactly well-formed addresses and reads only the string", "statement": "Setting an address from text succeeds exactly for four dot-separated decimal octets in 0..255, never reads outside the string, and a rejected text leaves the object invalid.", "quantifier": "all C strings", "why_tests_cant": "All strings of all lengths, including malformed ones.", "anchors": ["src/Os/Network/Ipv4.cpp 24-89, 172-213"]}
{"id": "C29", "title": "UniquePointer destroys its object exactly once", "statement": "Over every history of creation, move construction, move assignment, clean and destruction of unique pointers, each created object is destroyed exactly once by the time all pointers are gone, never used after destruction, and at most one pointer owns it at any time.", "quantifier": "all histories over any number of pointer variables", "why_tests_cant": "Ownership histories are unbounded.", "anchors": ["include/FlameIDE/Templates/Pointers.hpp: UniquePointer 463-583"]}
{"id": "C30", "title": "SharedPointer keeps the object alive exactly as long as it has owners", "statement": "The shared object is destroyed exactly when its last owner is destroyed, reset or reassigned: not earlier, and not never.", "quantifier": "all histories of copies, moves, assignments and destructions", "why_tests_cant": "All ownership histories.", "anchors": ["include/FlameIDE/Templates/Pointers.hpp: SharedPointer, Counter"]}
{"id": "C31", "title": "Variant holds exactly the value last stored in it", "statement": "Over every history of set, copy, assignment and reset, a variant reports the alternative last stored, get<T>() gives a pointer exactly when T is that alternative, and every stored value is destroyed exactly once.", "quantifier": "all alternative lists, all values, all histories", "why_tests_cant": "Unbounded alternatives and histories.", "anchors": ["include/FlameIDE/Templates/Variant.hpp 280-640"]}
{"id": "C32", "title": "Optional assignment makes the target equal to the source", "statement": "After a = b for optionals, a is filled exactly when b is and holds the same value; every constructed value is destroyed exactly once over all histories.", "quantifier": "all histories and values", "why_tests_cant": "All combinations of filled/empty over all histories.", "anchors": ["include/FlameIDE/Templates/Optional.hpp 73-266"]}
{"id": "C33", "title": "Expected (common) stores one of result/error with correct lifetimes", "statement": "Over every history of assignments, an Expected holds exactly the last assigned result or error, exactly one of ifResult/ifError is invoked, and no stored value is destroyed twice or leaked.", "quantifier": "all histories and values", "why_tests_cant": "Lifetime errors depend on assignment history.", "anchors": ["include/FlameIDE/Common/Expected.hpp 100-290"]}
{"id": "C34", "title": "Expected (variant based) invokes exactly the matching handler", "statement": "ifResult calls its functor exactly when a result is stored, ifError exactly when an error is stored, for every chain of handlers.", "quantifier": "all states, handler chains of any length", "why_tests_cant": "All chains.", "anchors": ["include/FlameIDE/Templates/Expected.hpp 132-187"]}
{"id": "C35", "title": "Type-erased Object destroys its value exactly once", "statement": "Over every history of storing values of any type, moving, taking and destroying Objects, every stored value is destroyed exactly once.", "quantifier": "all histories", "why_tests_cant": "Unbounded histories.", "anchors": ["include/FlameIDE/Templates/Object.hpp 60-220"]}
{"id": "C36", "title": "Event queue is a bounded FIFO under concurrency", "statement": "For every interleaving of threads pushing to and popping from the event queue, there is a sequential order of the operations, consistent with each thread's order, in which the queue behaves as a FIFO bounded by its capacity; a push on a full queue reports failure and changes nothing; a pop on an empty one reports failure.", "quantifier": "all numbers of threads, all programs, all interleavings, all capacities", "why_tests_cant": "Schedules cannot be enumerated by tests.", "anchors": ["src/Os/Async/Network/QueuedArray.hpp"]}
{"id": "C37", "title": "Registrar loses and duplicates no event", "statement": "Every descriptor pushed successfully for a registered socket kind is popped exactly once and in order by the matching pop function, kinds do not mix, and clear() leaves all queues empty.", "quantifier": "all histories of events and pops", "why_tests_cant": "Unbounded histories.", "anchors": ["src/Os/Async/Network/Registrar.cpp 91-199"]}
{"id": "C38", "title": "Event delivery from the signal handler cannot deadlock", "statement": "Delivery of a network signal always completes, whatever the interrupted thread was doing.", "quantifier": "all interruption points", "why_tests_cant": "Requires interrupting at one exact instruction.", "anchors": ["src/Os/Posix/Async/Network/EventCatcher.cpp 91-152", "src/Os/Async/Network/QueuedArray.hpp"]}
{"id": "C39", "title": "Shared counter loses no updates", "statement": "For every interleaving of increments and decrements by any number of threads the counter's final value is its initial value plus increments minus decrements (modulo its width), and every read returns a value the counter really had.", "quantifier": "all thread counts, programs and schedules", "why_tests_cant": "Lost updates are schedule dependent.", "anchors": ["include/FlameIDE/Os/Threads/Counter.hpp"]}
{"id": "C40", "title": "Scoped lockers release what they acquired", "statement": "A Locker holds the lock for exactly its scope, so critical sections never overlap; a UniqueLocker releases on destruction exactly if it holds the lock, also after being moved; the lock is never released twice.", "quantifier": "all interleavings and all histories of lock, tryLock, unlock, move, destroy", "why_tests_cant": "All schedules and histories.", "anchors": ["src/Os/Threads/Utils.cpp 40-205"]}
{"id": "C41", "title": "Condition variable notify wakes a waiter and returns", "statement": "A waiting thread stays blocked until notify; notify on a condition variable with waiters lets one of them continue and returns; notify without waiters has no effect.", "quantifier": "all numbers of waiters, all interleavings", "why_tests_cant": "Schedules and the number of waiters are unbounded.", "anchors": ["src/Os/Threads/ConditionVarable.cpp", "include/FlameIDE/Os/Threads/ConditionVariable.hpp"]}
{"id": "C42", "title": "Every socket is closed exactly once", "statement": "Over every history of creating, moving, assigning and destroying network objects, each opened descriptor is closed exactly once and no other descriptor is closed.", "quantifier": "all histories", "why_tests_cant": "Unbounded ownership histories.", "anchors": ["src/Os/Network/NetworkBase.cpp 29-93", "src/Os/Posix/Network/SocketFunctions.cpp 149-158"]}
{"id": "C43", "title": "Dynamic library handles are closed exactly once", "statement": "Over every history of loading, moving and destroying Library objects each loaded library is closed exactly once; moved-from objects may be destroyed safely.", "quantifier": "all histories", "why_tests_cant": "Unbounded ownership histories.", "anchors": ["src/Os/Library.cpp 27-64"]}
{"id": "C44", "title": "Thread primitives release their native object exactly once", "statement": "Over every history of construction, move, move assignment and destruction, each native mutex, spin lock and semaphore is destroyed exactly once.", "quantifier": "all histories", "why_tests_cant": "Unbounded ownership histories.", "anchors": ["src/Os/Threads/Mutex.cpp", "src/Os/Threads/Semaphore.cpp", "src/Os/Threads/Spin.cpp"]}
{"id": "C45", "title": "RamStream is a FIFO byte stream", "statement": "Over every history of writes and reads, the bytes returned by reads, in order, are exactly the bytes written, in order; a read returns min(requested, available) bytes.", "quantifier": "all write/read histories and buffer sizes", "why_tests_cant": "Unbounded histories and sizes.", "anchors": ["src/Streams/RamStream.cpp 10-68"]}
{"id": "C46", "title": "Splitting a circular range covers it exactly", "statement": "The continuous ranges computed for a circular byte range, concatenated, enumerate exactly the elements of the circular range in order and stay inside the underlying buffer.", "quantifier": "all buffer sizes, begin and end positions", "why_tests_cant": "All alignments.", "anchors": ["src/Streams/StreamUtils.cpp 12-40"]}
{"id": "C47", "title": "Writer accepts the longest prefix that fits", "statement": "putData stores the first min(free space, input size) bytes of the input in order after the already buffered ones and returns that number.", "quantifier": "all buffers and inputs", "why_tests_cant": "All sizes.", "anchors": ["include/FlameIDE/Streams/Writer.hpp 77-89"]}
{"id": "C48", "title": "Range comparison utility decides equality", "statement": "isEqual on two ranges is true exactly when they have the same length and equal elements; isEqual on two objects is true exactly when all bytes agree.", "quantifier": "all ranges and objects", "why_tests_cant": "All contents and lengths.", "anchors": ["include/FlameIDE/Common/Utils.hpp 378-420"]}
{"id": "C49", "title": "alignedPointer returns the least aligned address not below the input", "statement": "For every alignment and address the result is a multiple of the alignment, is at least the address, and is less than address + alignment; a null pointer stays null.", "quantifier": "all addresses and alignments", "why_tests_cant": "2^64 addresses.", "anchors": ["include/FlameIDE/Common/Utils.hpp 500-525"]}
{"id": "C50", "title": "Bit constants denote their bit", "statement": "Constant number k of each 8/16/32/64-bit family equals 2^k, and the minimal type for k bits is the narrowest type with at least k bits.", "quantifier": "all constants; all k", "why_tests_cant": "A mistaken constant is invisible unless each is compared with its specification; k unbounded.", "anchors": ["include/FlameIDE/Templates/Bits.hpp"]}
{"id": "C51", "title": "Cyclic shift is a rotation", "statement": "A CycleInteger shift by k rotates the bits of the value by k modulo its width; rotating left after right restores the value.", "quantifier": "all values, widths and shift counts", "why_tests_cant": "2^64 values and all counts.", "anchors": ["include/FlameIDE/Templates/CycleInteger.hpp 293-340"]}
{"id": "C52", "title": "PKCS#11 mutex wrapper pairs lock with unlock and destroys once", "statement": "Each lock() is followed on unlock() by the unlock callback for the same mutex, every created native mutex is destroyed exactly once over all move histories, and an object constructed with missing callbacks is safe to destroy.", "quantifier": "all histories", "why_tests_cant": "Unbounded histories.", "anchors": ["src/Crypto/SoftPkcs11/Mutex.cpp"]}
{"id": "C53", "title": "Range copy algorithms copy exactly the common prefix", "statement": "copy(out, in) over ranges writes the first min(|out|, |in|) input elements to the output and leaves the rest untouched; countIterations returns the number of elements; foreach visits each element once in order.", "quantifier": "all ranges", "why_tests_cant": "All lengths.", "anchors": ["include/FlameIDE/Templates/SimpleAlgorithms.hpp 66-139"]}
{"id": "C54", "title": "Library path is directory, separator, prefix, name, suffix", "statement": "The file path handed to the dynamic loader is exactly dir/prefix+name+suffix, NUL-terminated and within its buffer, whether the short static buffer or the heap string is used.", "quantifier": "all directory and library names of any length", "why_tests_cant": "All lengths including the switch between buffers.", "anchors": ["src/Os/Library.cpp 81-136"]}
{"id": "C55", "title": "Vector operations accept the vector's own elements as arguments", "statement": "v.pushBack(v[i]) appends a copy of element i and v.insert(it, v[i]) inserts a copy of element i, whatever the vector's capacity and the relation of i to the insert position.", "quantifier": "all vectors, all element indices, all insert positions", "why_tests_cant": "Failure depends on whether this very call reallocates and on the relative position of source and destination, for all sizes.", "anchors": ["include/FlameIDE/Templates/Vector.hpp: pushBack (698-711), insert (745-773)"]}
{"id": "C56", "title": "A Vector destroys every element it created", "statement": "After any history of calls, destroying the vector leaves no element object alive in the released storage (every constructed element has been destroyed).", "quantifier": "all histories of calls on an initially empty vector, all element types with non-trivial destructors", "why_tests_cant": "Leaks depend on the combination of erases, inserts and growth over an unbounded history and are invisible to value-based assertions.", "anchors": ["include/FlameIDE/Templates/Vector.hpp: erase (880-896), popBack, clean, ~Vector"]}
{"id": "C57", "title": "Copies of a fixed-capacity vector hold the source's contents", "statement": "Copy construction, copy assignment and clone() of Array<T, N, false> give exactly the source's elements in order; between different capacities a source that does not fit leaves a constructed target empty and an assigned target unchanged.", "quantifier": "all contents, all pairs of capacities, all previous contents of the target", "why_tests_cant": "All size/capacity combinations and previous contents.", "anchors": ["include/FlameIDE/Templates/Array.hpp: Array copy constructors, operator=, clone (440-555, 685-692)"]}
{"id": "C58", "title": "Erasing through reverse iterators removes exactly the designated elements", "statement": "array -= reverse_iterator removes the element it refers to; array -= range(reverse iterators) removes exactly the elements visited by that reverse range.", "quantifier": "all contents, all reverse positions and ranges", "why_tests_cant": "Off-by-one errors at both ends of reverse ranges depend on positions.", "anchors": ["include/FlameIDE/Templates/Array.hpp: operator-=(ReverseIterator), operator-=(Range<ReverseIterator>) (631-651)"]}
{"id": "C59", "title": "CircularArray move construction keeps the queue", "statement": "Move-constructing a CircularArray yields an array whose size and forward and backward iteration are those of the source before the move, wherever the oldest element sits in the storage.", "quantifier": "every capacity, every content and every rotation of the source", "why_tests_cant": "the rotation of the ring depends on the whole history of pushes and pops", "anchors": ["include/FlameIDE/Templates/CircularArray.hpp: CircularArray(Me &&), begin, end"]}
{"id": "C60", "title": "CircularArray destroys each element exactly once", "statement": "When a CircularArray is destroyed (or cleaned), the destructor of every stored element runs exactly once and no element stays alive.", "quantifier": "every history of operations, including arrays obtained by copying or moving", "why_tests_cant": "double destruction and leaks are silent for most element types", "anchors": ["include/FlameIDE/Templates/CircularArray.hpp: ~CircularArray, clean, popFront, CircularArray(const Me &)", "include/FlameIDE/Templates/Array.hpp: ~StaticVector"]}
{"id": "C61", "title": "CircularArray backward iteration reverses forward iteration", "statement": "Iterating rbegin()..rend() delivers exactly the reverse of begin()..end(), and both deliver size() elements.", "quantifier": "every capacity and every history of pushes, range pushes and pops", "why_tests_cant": "depends on where head and tail wrapped", "anchors": ["include/FlameIDE/Templates/CircularArray.hpp: rbegin, rend, begin, end", "include/FlameIDE/Templates/Iterator/Operators.hpp"]}
{"id": "C62", "title": "List releases every node exactly once", "statement": "After any history of calls on a List, destroying it (or cleaning it) releases every node it ever allocated and no node twice.", "quantifier": "all element values, operation histories of any length", "why_tests_cant": "A leak or double release appears only after particular histories of link changes; a test samples a few.", "anchors": ["include/FlameIDE/Templates/List.hpp: clean, erase, popBack, popFront, insert"]}
{"id": "C63", "title": "Compile-time byte reversal agrees with the run-time one", "statement": "CompileTimeReverseBytes of a value equals the run-time reversal of that value: byte i of the result is byte n-1-i of the value, for every unsigned and signed 16/32/64-bit template argument.", "quantifier": "all template argument values", "why_tests_cant": "A template argument must be spelled out for each test.", "anchors": ["include/FlameIDE/Templates/ByteOrder.hpp 19-115"]}
{"id": "C64", "title": "Signed values keep their value in a wide integer", "statement": "A signed primitive value assigned to a WideInt reads back with the same value through every signed type at least as wide (and no wider than the WideInt).", "quantifier": "all values, all pairs of types, all widths", "why_tests_cant": "All values and widths.", "anchors": ["include/FlameIDE/Templates/WideInt.hpp 221-245, 341-367, 440-454"]}
{"id": "C65", "title": "Constructing a wide integer from a value equals assigning it", "statement": "WideInt x(v) denotes the same number as WideInt x; x = v, whatever memory the object occupies.", "quantifier": "all values, widths and prior memory contents", "why_tests_cant": "Depends on indeterminate memory, which tests usually find zeroed.", "anchors": ["include/FlameIDE/Templates/WideInt.hpp 426-454", "include/FlameIDE/Templates/Array.hpp 1280-1281"]}
{"id": "C66", "title": "operator~ of a wide integer leaves its operand alone", "statement": "Evaluating ~x does not change the number x denotes.", "quantifier": "all wide integers", "why_tests_cant": "All values.", "anchors": ["include/FlameIDE/Templates/WideInt.hpp 330-337, 800-808"]}
{"id": "C67", "title": "Compound operators of wide integers compute", "statement": "For each of <<=, >>=, &=, |=, +=, -=, *=, /= on unsigned wide integers the left operand becomes the mathematical result modulo its width.", "quantifier": "all operators, operands and widths", "why_tests_cant": "2^(2n) operand pairs.", "anchors": ["include/FlameIDE/Templates/WideInt.hpp 456-603"]}
{"id": "C68", "title": "File streams report exactly what a circular transfer moved", "statement": "Reading into or writing from a circular range of a file stream transfers the bytes in order starting at the range's begin, touches nothing outside the range, and returns the number of bytes transferred.", "quantifier": "all buffers, ranges, file contents and partial transfers by the operating system", "why_tests_cant": "Depends on where the range lies in the buffer and on how the operating system splits a transfer.", "anchors": ["src/Streams/Posix/FileStreamReader.cpp 46-77", "src/Streams/Posix/FileStreamWriter.cpp 37-71"]}
{"id": "C69", "title": "Streams close the descriptors they own exactly once", "statement": "A descriptor given to a file or pipe stream with ownership is closed exactly once, by the last stream holding it, unless taken back; a descriptor lent without ownership is never closed by a stream.", "quantifier": "all sequences of construction, move, assignment, setFileDescriptor, getFileDescriptor and destruction", "why_tests_cant": "Leaks and double closes depend on histories of several objects and are invisible to return values.", "anchors": ["src/Streams/Posix/FileStreamReader.cpp 12-44, 78-94", "src/Streams/Posix/FileStreamWriter.cpp 12-35", "src/Streams/Posix/NamedPipeStream.cpp 29-42, 81-104", "src/Streams/Posix/NamedPipeWriter.cpp 12-44"]}
{"id": "C70", "title": "Memory and number utilities compute what they say", "statement": "copy(dst, src, n) replaces exactly the first n bytes of dst by those of src; length returns the number of elements before the first zero and reads no further; maximum and minimum return the larger and the smaller argument.", "quantifier": "all objects, sizes, arrays and numbers", "why_tests_cant": "All contents and sizes.", "anchors": ["include/FlameIDE/Common/Utils.hpp 539-576"]}
{"id": "C71", "title": "Every started thread is joined exactly once, while its object exists", "statement": "For a class derived from ThreadBase: every native thread started by run() is released (joined or detached) exactly once by the time its object is destroyed, no member call is undefined, and the object a thread works on outlives the thread.", "quantifier": "For every history of construction, move, run (successful or failing), join, detach and destruction of any number of thread objects.", "why_tests_cant": "Leaked and doubly joined threads are undefined behaviour or invisible to a test; the failing paths need a failing pthread_create.", "anchors": ["src/Os/Threads/Thread.cpp:13", "src/Os/Posix/Threads/ThreadFunctions.cpp:21"]}
{"id": "C72", "title": "The status of a thread primitive tells what the system did", "statement": "Each Mutex, Spin, Semaphore and thread function returns success exactly when the native call succeeded, and otherwise the negated error code of that call; try-functions answer true exactly when the lock was taken.", "quantifier": "For every outcome of the native calls and every previous value of errno.", "why_tests_cant": "Native failures of locks can hardly be provoked in a test, and the answer depends on stale errno.", "anchors": ["src/Os/Posix/Threads/MutexFunctions.cpp:6", "src/Os/Posix/Threads/SemaphoreFunctions.cpp:6", "src/Os/Posix/Threads/SpinFunctions.cpp:6", "src/Os/Threads/Semaphore.cpp:68"]}
{"id": "C73", "title": "A socket addresses the host and port it was made for", "statement": "A client socket made for an Ipv4 addresses exactly these octets and this port, a server socket is bound to the port given; reading the address back gives the Ipv4; reconnect() addresses the same peer.", "quantifier": "For all octets, all int ports and both host byte orders.", "why_tests_cant": "There are 2^48 addresses; the wrong ones look like network failures.", "anchors": ["src/Os/Posix/Network/SocketFunctions.cpp:27", "src/Os/Posix/Network/SocketFunctions.cpp:172", "src/Os/Network/TcpClient.cpp:39"]}
{"id": "C74", "title": "Waiting for a number of bytes ends when that many bytes are there", "statement": "waitBytes(socket, n) returns as soon as at least n bytes are waiting, or with an error when they can no longer come.", "quantifier": "For every sequence of answers of the system.", "why_tests_cant": "Depends on the timing with which bytes arrive.", "anchors": ["src/Os/Posix/Network/TcpSocketFunctions.cpp:122"]}
{"id": "C75", "title": "Probing a TCP connection tells whether it is alive and leaves it as it was", "statement": "alive(socket) answers true exactly for a usable connection, consumes nothing, and the descriptor's blocking mode is the same before and after.", "quantifier": "For every connection state, every native outcome and every set of descriptor flags.", "why_tests_cant": "Broken-connection errors and flag combinations cannot be enumerated in a test with a real network.", "anchors": ["src/Os/Posix/Network/TcpSocketFunctions.cpp:134", "src/Os/Posix/Network/SocketFunctions.cpp:221"]}
{"id": "C76", "title": "TCP transfers report the bytes moved", "statement": "send/receive of TcpClient and TcpServer::WithClient return the number of bytes the system moved, or -1 with the negated error code in the status; the status keeps the last failure over later successes.", "quantifier": "For every outcome of the native calls and every sequence of transfers.", "why_tests_cant": "Failures cannot be provoked at will.", "anchors": ["src/Os/Network/TcpClient.cpp:56", "src/Os/Network/TcpServer.cpp:117"]}
{"id": "C77", "title": "A UDP server replies to the sender of the datagram last received", "statement": "WithClient::send sends through the server's socket to the peer whose datagram the same object (or the one it was copied from) received last; receive takes exactly the oldest waiting datagram; no call on an object returned by wait() is undefined.", "quantifier": "For every history of servers, datagrams, wait, receive, send, copies and moves.", "why_tests_cant": "Histories with several peers and objects, and dangling pointers after moving a server, are not reached by unit tests.", "anchors": ["src/Os/Network/UdpServer.cpp:57", "src/Os/Posix/Network/UdpSocketFunctions.cpp:14", "include/FlameIDE/Os/Types.hpp:77"]}
{"id": "C78", "title": "Network notifications reach the server they belong to", "statement": "Every notification for a registered descriptor is delivered to that server, as a connection for an accepting server and as data for others; unknown descriptors are ignored; as long as the system keeps notifying, no server waits for ever and no data notification is lost.", "quantifier": "For every set of registered servers and every sequence of notifications.", "why_tests_cant": "The outcome depends on which notification comes first and on the notification queue, which tests cannot control.", "anchors": ["src/Os/Posix/Async/Network/EventCatcher.cpp:49"]}
{"id": "C79", "title": "Disabling a descriptor undoes enabling it", "statement": "After enable followed by disable the descriptor flags and owner are as before; a failed enable changes nothing; the returned status is that of the failing system call.", "quantifier": "For every set of descriptor flags and every outcome of the system calls.", "why_tests_cant": "fcntl failures and flag combinations cannot be enumerated with real descriptors.", "anchors": ["src/Os/Posix/Async/Network/EventCatcher.cpp:110"]}
{"id": "C80", "title": "Asking a PKCS#11 library that is not initialised yields an error", "statement": "Every accessor of Pkcs11 returns an error result when the library is not initialised or the module fails, and the module's value otherwise; initialize() returns the code of the first failing step.", "quantifier": "For every answer of the module.", "why_tests_cant": "The error branches need a failing module; tests only see the compiled conversions, not which alternative an arbitrary error code selects.", "anchors": ["src/Crypto/Pkcs11/Pkcs11.cpp:38", "include/FlameIDE/Crypto/Pkcs11/Pkcs11.hpp:75"]}
{"id": "C81", "title": "The slot list is the module's slot list", "statement": "For an initialised library, getSlotIdList() returns exactly the slot identifiers the module reports.", "quantifier": "For every number of slots and every list of identifiers.", "why_tests_cant": "The number of slots depends on hardware; a test with no token sees an empty list in any case.", "anchors": ["src/Crypto/Pkcs11/Pkcs11.cpp:184"]}
{"id": "C82", "title": "C_Initialize and C_Finalize come in pairs", "statement": "A module initialised through a Pkcs11 object is finalised exactly once, by finalize() or the destructor, and no function of the module is called while it is not initialised.", "quantifier": "For every sequence of initialize, finalize, accessors and destruction and every answer of the module.", "why_tests_cant": "The failing histories need failing modules and are longer than unit tests.", "anchors": ["src/Crypto/Pkcs11/Pkcs11.cpp:19", "src/Crypto/Pkcs11/Pkcs11.cpp:38", "src/Crypto/Pkcs11/Pkcs11.cpp:71"]}
{"id": "C83", "title": "The interface list can be read", "statement": "getInterfaceList() of an initialised library gives access to the interfaces the module reported, as often as it is called.", "quantifier": "For every list of interfaces and any number of calls.", "why_tests_cant": "Reading a destroyed object often appears to work.", "anchors": ["src/Crypto/Pkcs11/Pkcs11.cpp:102", "src/Crypto/Pkcs11/Pkcs11.cpp:252"]}
{"id": "C84", "title": "Comparing AsIntegralType objects compares their values", "statement": "The six comparison operators between two objects, or an object and an integer of any type, give the result of comparing the mathematical values.", "quantifier": "For every object type, operand type and pair of values.", "why_tests_cant": "The existing test avoids equal operands for >= and <=, and never mixes widths.", "anchors": ["include/FlameIDE/Templates/AsIntegralType.hpp:203", "include/FlameIDE/Templates/AsIntegralType.hpp:261"]}
{"id": "C85", "title": "Arithmetic on AsIntegralType is arithmetic of the underlying type", "statement": "Whenever the exact result (and the operand) is a value of the type, + - * / << >> | give it; otherwise unsigned types wrap around; nothing else is undefined.", "quantifier": "For every type, every pair of values and every operand type.", "why_tests_cant": "All pairs of 64-bit values and all type combinations cannot be tested.", "anchors": ["include/FlameIDE/Templates/AsIntegralType.hpp:287", "include/FlameIDE/Templates/AsIntegralType.hpp:542"]}
{"id": "C86", "title": "Bitwise operators and conversions of byte_t act on exactly eight bits", "statement": "|, &, ^ with any integer combine the byte with the low eight bits of the integer, ~ inverts the eight bits, and a byte survives conversion to any integer type and back.", "quantifier": "For every byte, integer type and integer.", "why_tests_cant": "Sixteen type combinations times all 64-bit operands.", "anchors": ["include/FlameIDE/Common/Byte.hpp:86", "include/FlameIDE/Common/Byte.hpp:140"]}
{"id": "C87", "title": "Shifting a byte by any count shifts its eight bits", "statement": "byte << k and byte >> k are defined for every count k >= 0 and equal the shift of eight bits.", "quantifier": "For every byte and count.", "why_tests_cant": "Undefined shifts are evaluated differently by constant folding, by optimisation levels and by processors.", "anchors": ["include/FlameIDE/Common/Byte.hpp:54", "include/FlameIDE/Common/Byte.hpp:70"]}
{"id": "C88", "title": "A range of integer iterators visits the integers between its ends", "statement": "Iterating makeRange(b, e) over integer iterators with b <= e terminates and visits exactly b, b+1, ..., e-1 in this order.", "quantifier": "For every iterator type and every b <= e of that type.", "why_tests_cant": "Ranges up to 2^64 cannot be iterated in a test.", "anchors": ["include/FlameIDE/Templates/IntegerIterator.hpp:65", "include/FlameIDE/Templates/Range.hpp:125", "include/FlameIDE/Templates/Iterator/Operators.hpp:259"]}
{"id": "C89", "title": "Integer iterators move by and measure distances exactly", "statement": "it + n is n further, it - n undoes it, and the difference of two iterators is the signed distance between their numbers.", "quantifier": "For every iterator type, position and distance inside the type.", "why_tests_cant": "The failing pairs depend on type and sign.", "anchors": ["include/FlameIDE/Templates/Iterator/Operators.hpp:313", "include/FlameIDE/Templates/Iterator/Operators.hpp:335"]}
{"id": "C90", "title": "A slot object keeps denoting its slot", "statement": "Whatever was called on a Slot, getSlotId() is the identifier it was created with and getSlotInfo() is about that slot.", "quantifier": "all slots, all histories of waits with all module answers", "why_tests_cant": "the module decides in which slot an event happens; a test module with one slot never shows a difference", "anchors": ["src/Crypto/Pkcs11/Slot.cpp:31-86"]}
{"id": "C91", "title": "Slot functions report failure", "statement": "When the library is not initialised or the module fails, waitForSlotEvent returns a failure code and getSlotInfo an error.", "quantifier": "all library states, all module answers", "why_tests_cant": "module failures cannot be provoked systematically", "anchors": ["src/Crypto/Pkcs11/Slot.cpp:39-86"]}
{"id": "C92", "title": "Initialisation arguments survive copies and moves", "statement": "Copying, moving and assigning InitializeArgs hands over exactly the callbacks, flags and reserved pointer, and every object remains acceptable to C_Initialize.", "quantifier": "all argument objects, all histories", "why_tests_cant": "histories of copies and moves over several objects, self-moves", "anchors": ["src/Crypto/Pkcs11/InitializeArgs.cpp"]}
{"id": "C93", "title": "The mutex callbacks manage real mutexes", "statement": "createMutex/destroyMutex/lockMutex/unlockMutex create each mutex once, destroy it once, refuse null, and report what happened.", "quantifier": "all histories of calls by a module, all outcomes of heap and native calls", "why_tests_cant": "allocation and native failures", "anchors": ["src/Crypto/Pkcs11/MutexReal/InitializeArgsCallbacks.cpp"]}
{"id": "C94", "title": "The soft token follows the initialisation protocol", "statement": "C_Initialize, C_Finalize and the general functions of the soft token return the codes PKCS#11 asks for in every order of calls.", "quantifier": "all histories of calls with all arguments", "why_tests_cant": "unbounded call orders", "anchors": ["src/Crypto/SoftPkcs11/Functions/GeneralPurposeFunctions.cpp", "src/Crypto/SoftPkcs11/GlobalContext.cpp"]}
{"id": "C95", "title": "The soft token fills arrays as announced", "statement": "C_GetInterfaceList and C_GetSlotList write no more than the announced room and report the number written.", "quantifier": "all array sizes and counts", "why_tests_cant": "array sizes are unbounded", "anchors": ["src/Crypto/SoftPkcs11/Functions/GeneralPurposeFunctions.cpp:78-94", "src/Crypto/SoftPkcs11/Functions/ManagementFunctions.cpp:12-24"]}
{"id": "C96", "title": "A copied PKCS#11 structure equals its source", "statement": "For every structure wrapper, copy construction and assignment copy every member.", "quantifier": "all 86 wrappers, all values of source and target", "why_tests_cant": "86 structures with up to 93 members and arbitrary values", "anchors": ["src/Crypto/Pkcs11/Types/Structs/*.cpp"]}
{"id": "C97", "title": "A constructed PKCS#11 structure has defined members", "statement": "The value constructor stores each argument in its member; the default constructor leaves no member indeterminate.", "quantifier": "all 86 wrappers, all arguments", "why_tests_cant": "indeterminate values look like any value in a test", "anchors": ["src/Crypto/Pkcs11/Types/Structs/*.cpp"]}
{"id": "C98", "title": "Every entry of the soft token's function lists is the function of its name", "statement": "In the function lists a client gets, each pointer is the token's function of that name.", "quantifier": "both lists, all entries, whatever functions stand behind the names", "why_tests_cant": "same-typed functions exchanged would still compile and mostly still return OK", "anchors": ["src/Crypto/SoftPkcs11/Callbacks.cpp", "src/Crypto/Pkcs11/Types/Structs/FunctionList3.cpp"]}
{"id": "C99", "title": "Array allocation creates and destroys whole arrays", "statement": "ArrayAllocator::construct(count, args) returns null (no memory, nothing changed) or a new block holding exactly count objects made from the arguments; destroy(pointer, count) of such an array destroys each object once, releases the block and nulls the pointer; when all arrays are handed back, no block is left and every object was destroyed.", "quantifier": "all element sizes, counts, constructor behaviours and all histories of construct/destroy calls", "why_tests_cant": "the failing counts are near 2^64 / sizeof(T); leaks and foreign writes are invisible to assertions on results", "anchors": ["include/FlameIDE/Templates/Allocator/ArrayAllocator.hpp:100-155", "include/FlameIDE/Templates/Allocator/MallocAllocator.hpp:56-85"]}
{"id": "C100", "title": "Reallocating an array keeps its beginning", "statement": "reallocateArray(pointer, count) either returns null and leaves the array as it was, or returns a block of count elements whose first min(old, new) objects are those of the old array, which is released.", "quantifier": "all arrays, counts and availability of memory", "why_tests_cant": "depends on malloc failing and on sizes beyond the address space; a dangling pointer often still reads the old values", "anchors": ["include/FlameIDE/Templates/Allocator/ArrayAllocator.hpp:126-155"]}
{"id": "C101", "title": "Single object allocation pairs construction and destruction", "statement": "ObjectAllocator::construct returns null or a fresh block with exactly the one object, moved from an rvalue argument; destroy ends that object, releases its block and nulls the pointer, and accepts null.", "quantifier": "all types (sizes, copy and move behaviours), arguments and heaps", "why_tests_cant": "whether an rvalue was copied is invisible for most types; null is undefined rather than failing", "anchors": ["include/FlameIDE/Templates/Allocator/ObjectAllocator.hpp:78-124"]}
{"id": "C102", "title": "An initializer list holds its arguments and destroys them once", "statement": "InitializerList(args...) for 1..SIZE arguments has size() = number of arguments, iterates over exactly the arguments in order, and its end destroys every element exactly once.", "quantifier": "all argument lists and sizes", "why_tests_cant": "double destruction is silent for most element types", "anchors": ["include/FlameIDE/Templates/InitializerList.hpp:56-142"]}
{"id": "C103", "title": "A scope guard runs its final call exactly once", "statement": "Every RaiiCaller runs the initial call at construction and the final call exactly once, when the guard (or the last copy of it) ends.", "quantifier": "all histories of constructing, copying and ending guards", "why_tests_cant": "tests use one guard in one scope", "anchors": ["include/FlameIDE/Templates/RaiiCaller.hpp:11-46"]}
{"id": "C104", "title": "Aligned storage destroys the object constructed in it", "statement": "An AlignObject constructed with arguments holds a live object until its own end, which destroys that object.", "quantifier": "all histories of constructing, copying and ending aligned objects", "why_tests_cant": "a missing destructor call has no visible result", "anchors": ["include/FlameIDE/Templates/AlignObject.hpp:93-117"]}
{"id": "C105", "title": "Position of a type in a parameter pack", "statement": "GetIndexOfType<T, Args...>::INDEX is the index of the first occurrence of T in Args, and -1 exactly if T does not occur; the type at that index is T; ComparingTypeWithPack over a non-empty pack is true exactly for the types it contains.", "quantifier": "all packs and types", "why_tests_cant": "tests instantiate a few packs", "anchors": ["include/FlameIDE/Common/Traits/Functional.hpp:17-82"]}
{"id": "C106", "title": "Uniqueness of a parameter pack", "statement": "IsUniqueParameterPack<Args...>::VALUE is true exactly when no type occurs twice in Args.", "quantifier": "all packs", "why_tests_cant": "tests instantiate a few packs; the wrong operator is right for two types", "anchors": ["include/FlameIDE/Common/Traits/Functional.hpp:216-263"]}
{"id": "C107", "title": "Tuple access by index", "statement": "After constructing a Tuple from values, get<i> gives the i-th value through const and non-const access; assigning through get<i> changes this component only; moving transfers all components.", "quantifier": "all type lists, all values, all indices", "why_tests_cant": "tests use tuples of two or three components", "anchors": ["include/FlameIDE/Templates/Tuple.hpp:36-164"]}
{"id": "C108", "title": "Making a named pipe", "statement": "makeNamedPipe returns for each requested end either an open descriptor with status success or an invalid descriptor with the (negative) error of the first failing call, reports the end not requested as invalid, and always returns.", "quantifier": "all answers of the system calls and all interleavings of the two threads", "why_tests_cant": "needs failing system calls and thread interleavings", "anchors": ["src/Streams/CommonFunctions.cpp:71-106", "src/Streams/Posix/CommonFunctionsImpl.cpp:16-54"]}
{"id": "C109", "title": "Destroying a named pipe", "statement": "destroyNamedPipe closes exactly the open descriptors of the pipe, each once, closes nothing else, and reports the errors.", "quantifier": "all descriptor pairs and all answers of close", "why_tests_cant": "leaked descriptors and closing foreign ones are not visible in a unit test", "anchors": ["src/Streams/CommonFunctions.cpp:44-67,108-119", "src/Streams/Posix/CommonFunctionsImpl.cpp:56-96"]}
{"id": "C110", "title": "Type at an index of a parameter pack", "statement": "GetTypeByIndex<i, Args...>::Type is the i-th type of the pack, and is rejected at compile time for every i outside the pack.", "quantifier": "all packs and indices", "why_tests_cant": "a compile-time failure cannot be a unit test", "anchors": ["include/FlameIDE/Common/Traits/Functional.hpp:17-82"]}
{"id": "C111", "title": "Windows spin lock excludes", "statement": "On Windows, between a return from Spin::lock (or a tryLock that reported OK) and the matching unlock, no other thread is inside the same lock; lock waits while another thread holds it; tryLock succeeds exactly when nobody holds it.", "quantifier": "all numbers of threads and all interleavings of the interlocked operations", "why_tests_cant": "a data race between two interlocked operations shows only in particular interleavings", "anchors": ["src/Os/Windows/Threads/SpinFunctions.cpp:12-52"]}
{"id": "C112", "title": "Windows mutex excludes", "statement": "On Windows at most one thread holds a mutex; lock returns exactly when nobody holds it; tryLock reports busy exactly when somebody does; unlock frees it; errors are reported and change nothing.", "quantifier": "all numbers of threads, interleavings and system call failures", "why_tests_cant": "a unit test sees few interleavings and no failing system calls", "anchors": ["src/Os/Windows/Threads/MutexFunctions.cpp:15-79"]}
{"id": "C113", "title": "Windows semaphore counts", "statement": "On Windows a semaphore lets through exactly as many waits as its initial value and the posts allow; value() reports the count.", "quantifier": "all interleavings of waits, posts, failures and queries", "why_tests_cant": "counts go wrong only when calls overlap or fail", "anchors": ["src/Os/Windows/Threads/SemaphoreFunctions.cpp:17-122"]}
{"id": "C114", "title": "Windows thread handles", "statement": "On Windows every thread handle is closed exactly once over any history of starting, joining, detaching, moving and destroying thread objects, and no thread works on a destroyed object.", "quantifier": "all histories of thread objects", "why_tests_cant": "leaked handles and destroyed objects in use are not visible in a unit test", "anchors": ["src/Os/Threads/Thread.cpp:13-105", "src/Os/Windows/Threads/ThreadFunctions.cpp:15-114"]}
{"id": "C115", "title": "Windows event registration", "statement": "Registering a socket with the Windows event catcher asks the system for exactly the events of the socket's kind, and the status tells whether it succeeded.", "quantifier": "all sockets, kinds, events and error codes", "why_tests_cant": "the mask handed to the system is not observable; wrong masks show as events that never come", "anchors": ["src/Os/Windows/Async/Network/EventCatcher.cpp:34-85"]}
{"id": "C116", "title": "Windows event delivery", "statement": "Every connection made to a registered listener is pushed once, in order, after finitely many messages; waiting data is always announced; destroying the event catcher ends its thread.", "quantifier": "all histories of connections, data, foreign messages and dispatches", "why_tests_cant": "lost wake-ups and starvation depend on the order of messages; termination is not testable", "anchors": ["src/Os/Windows/Async/Network/MessageDispatchThread.cpp:35-247", "src/Os/Windows/Async/Network/EventCatcher.cpp:14-85"]}
{"id": "C117", "title": "Windows named pipe handles", "statement": "On Windows every handle a named pipe reader, writer or stream owns is closed exactly once over any history of construction, moving, assignment, reopening and destruction, and a handle it was only lent is never closed.", "quantifier": "all histories of reader, writer and stream objects, all handles", "why_tests_cant": "leaked handles, repeated closing and closing of borrowed handles are not visible in a unit test", "anchors": ["src/Streams/Windows/NamedPipeReader.cpp:12-60", "src/Streams/Windows/NamedPipeWriter.cpp:12-70", "src/Streams/Windows/NamedPipeStream.cpp:14-115", "src/Streams/Windows/CommonFunctionsImpl.cpp:85-108"]}
{"id": "C118", "title": "Windows named pipe rendezvous", "statement": "On Windows making both ends of a named pipe returns two ends connected to each other, or an error with nothing left open, under every schedule of the two threads and other processes.", "quantifier": "all schedules, all failures of the system calls", "why_tests_cant": "the outcome depends on which thread comes first; a call that never returns is not testable", "anchors": ["src/Streams/CommonFunctions.cpp:80-91", "src/Streams/Windows/CommonFunctionsImpl.cpp:21-69"]}
{"id": "C119", "title": "Windows unnamed pipe", "statement": "On Windows constructing an unnamed pipe is defined, its status is success exactly if the pipe was created, and both ends are closed exactly once.", "quantifier": "all results of the system call, all handles, moved and assigned pipes", "why_tests_cant": "undefined reads need not show, and leaked handles are not visible in a unit test", "anchors": ["src/Streams/Windows/PipeStream.cpp:19-77", "src/Streams/Windows/FileStreamReader.cpp:11-43"]}
{"id": "C120", "title": "Windows socket creation", "statement": "On Windows creating a socket returns a valid new socket for the address asked for exactly if every system call succeeded, and leaves nothing open otherwise; the Winsock library is started once, before the first socket; queries report failures as failures.", "quantifier": "all histories, all answers of the system, all addresses and ports", "why_tests_cant": "failing system calls cannot be provoked in a unit test, and leaked sockets are not visible", "anchors": ["src/Os/Windows/Network/SocketFunctions.cpp:54-257", "src/Os/Windows/Network/SocketFunctions.cpp:281-327"]}
{"id": "C121", "title": "Windows UDP server", "statement": "On Windows a UDP server's client object receives exactly the oldest waiting datagram and replies to its sender; no datagram is lost and no call is undefined.", "quantifier": "all histories of servers, client objects and arriving datagrams, all sizes", "why_tests_cant": "loss depends on the sizes of datagrams and buffers; undefined behaviour need not show", "anchors": ["src/Os/Windows/Network/UdpSocketFunctions.cpp:14-116", "src/Os/Network/UdpServer.cpp:13-84"]}
{"id": "C122", "title": "Windows TCP probe and transfer", "statement": "On Windows alive() returns at once and answers true exactly for a usable connection; send and receive move as many bytes as there are, up to the size of the range, and return 0 from receive only at the end of the stream or for an empty range.", "quantifier": "all states of a connection, all range sizes", "why_tests_cant": "broken and idle connections and ranges above 2 GiB are not set up in unit tests", "anchors": ["src/Os/Windows/Network/TcpSocketFunctions.cpp:18-137"]}
{"id": "C123", "title": "File streams on Windows close their handle exactly once and transfer like those on POSIX", "statement": "On Windows a FileStreamReader or FileStreamWriter that owns a handle closes it exactly once, and one that does not never closes it, however objects are default constructed, created, moved, given new handles and destroyed; reading and writing a range moves the same bytes and returns the same number as on POSIX.", "quantifier": "all sequences of construction, default construction, moves, setFileDescriptor, getFileDescriptor, use and destruction over any number of objects and handles; all buffers, ranges and outcomes of ReadFile and WriteFile", "why_tests_cant": "A flag that is never written usually reads as false in a test; tests do not create ranges of four gigabytes and cannot enumerate the orders in which objects are moved and destroyed.", "anchors": ["src/Streams/Windows/FileStreamReader.cpp:11-106", "src/Streams/Windows/FileStreamWriter.cpp:11-106"]}
{"id": "C124", "title": "A socket_utils address made from a text is the address the text denotes, and gives that text back", "statement": "streams::socket_utils::Ipv4 and Ipv6 made from the text of an address hold the numbers the text denotes, a text that denotes none is refused, getAddress() gives the text of the address, and copies and assignments preserve numbers and port.", "quantifier": "all texts and null, all addresses and ports, all previous contents of the target", "why_tests_cant": "A test compares the text of one address; that no accepted text gives anything but zeros, and that an Ipv6 made from a text has no value, is a statement about all texts.", "anchors": ["include/FlameIDE/Streams/SocketUtils.hpp:30-124", "src/Streams/SocketUtils.cpp:13-154"]}
{"id": "C125", "title": "A circular vector holds the elements it was made from and frees its storage once", "statement": "A templates::CircularVector made from a range or another vector holds the same elements, has a capacity it has storage for, moving hands over the storage, and every block of memory is freed exactly once whatever the order of construction, copy, move, assignment and destruction.", "quantifier": "all histories of construction from ranges of any length, copies, moves, assignments and destruction over any number of vectors, with and without memory", "why_tests_cant": "Counting elements that are never copied, a missing return and a capacity that wraps below zero show in no type error; the ownership of blocks concerns all histories.", "anchors": ["include/FlameIDE/Templates/CircularVector.hpp:442-549"]}
{"id": "C126", "title": "Every function of the soft token reaches the implementation of its own meaning with the caller's arguments", "statement": "A caller that takes a Cryptoki function from the soft token's exports or from either of its function lists reaches, through the callback table, the implementation that is to serve that function, with all arguments in order; no two functions share an implementation.", "quantifier": "all 92 exported functions, all members of both function lists, all arguments", "why_tests_cant": "Swapped pointers of the same type compile and, as long as the implementations do the same, no test sees the difference.", "anchors": ["src/Crypto/SoftPkcs11/Interface/*.cpp", "src/Crypto/SoftPkcs11/Callbacks.hpp:20-325", "src/Crypto/SoftPkcs11/Callbacks.cpp", "src/Crypto/SoftPkcs11/Functions/*.cpp"]}
{"id": "C127", "title": "The soft token answers OK only for what it has done", "statement": "A function of the soft token returns CKR_OK only if it did what it is for: a signature, PIN or user was accepted because it is valid, a result was written where the caller asked for it, and the call is allowed at that point of the session.", "quantifier": "all calls with any arguments and memory; all histories of calls; every possible notion of validity", "why_tests_cant": "A test that expects CKR_OK passes; that a wrong signature is refused concerns all signatures.", "anchors": ["src/Crypto/SoftPkcs11/Functions/*.cpp"]}
{"id": "C128", "title": "Backward traversal delivers the elements in reverse", "statement": "A range-for over rbegin()..rend() of an Array, Vector, HybridVector or String has defined behaviour and delivers exactly the elements of begin()..end() in reverse order.", "quantifier": "all contents, including empty containers and all element types", "why_tests_cant": "A test walks a few containers on one machine; it cannot show the order for all contents, and forming the pointer before the first element goes unnoticed on machines with flat addresses.", "anchors": ["include/FlameIDE/Templates/Array.hpp:718-744", "include/FlameIDE/Templates/Vector.hpp:644-690", "include/FlameIDE/Templates/String.hpp:471-525", "include/FlameIDE/Templates/HybridVector.hpp:1534-1656"]}
{"id": "C129", "title": "Combined PKCS#11 flags can be taken apart again", "statement": "For every flag enumeration of the PKCS#11 wrapper, combining any of its flags with | and testing with & finds exactly the flags that were combined; two combinations are equal exactly if they contain the same flags; & of two combinations contains exactly the flags they share.", "quantifier": "all flag enumerations, all lists of their flags, all tested enumerators", "why_tests_cant": "There are 2^27 combinations of the mechanism flags alone; a test tries a handful.", "anchors": ["include/FlameIDE/Crypto/Pkcs11/Types/Enums.hpp:45-56", "include/FlameIDE/Crypto/Pkcs11/Types/Enums.hpp:100-1510"]}
{"id": "C130", "title": "A PKCS#11 value stands for one enumerator", "statement": "In every enumeration of the PKCS#11 wrapper different enumerators have different values, and every value is representable in the underlying type, also where CK_ULONG has 32 bits.", "quantifier": "all enumerations and all pairs of their enumerators", "why_tests_cant": "880 enumerators give over 100000 pairs; tests name a few.", "anchors": ["include/FlameIDE/Crypto/Pkcs11/Types/Enums.hpp:59-1516"]}
{"id": "C131", "title": "Copies of a HybridVector hold the same sequence and live on independently", "statement": "Copying, cloning, moving or assigning a HybridVector, or making one from an Array or Vector, gives a container with the source's sequence; afterwards both can be used on, each showing only what its own calls did.", "quantifier": "all contents and storages of source and target, all later histories", "why_tests_cant": "What happens depends on the storage each side happens to use; assignment from an empty container and use of what a move leaves behind look right in small tests.", "anchors": ["include/FlameIDE/Templates/HybridVector.hpp: constructors, operator=, clone, capacity", "include/FlameIDE/Templates/Variant.hpp:450-510"]}
{"id": "C132", "title": "HybridVector iterators are random access iterators", "statement": "For every HybridVector, begin()+m behaves like the integer m (difference, order, equality, stepping), end() is begin()+size(), reading gives the element at that position, and traversal in both directions visits exactly the sequence.", "quantifier": "all containers, all offsets", "why_tests_cant": "The iterator is a variant whose alternatives are handled case by case in seventeen operators; tests touch a few of the combinations.", "anchors": ["include/FlameIDE/Templates/HybridVector.hpp:600-980, 1490-1660"]}
{"id": "C133", "title": "Network objects report whether their last operation failed", "statement": "getStatus() of a TCP client, UDP client, TCP server connection or UDP peer is negative exactly if the most recent operation failed, the conversion to bool tells whether the object can be used, and a server that could not listen does not accept.", "quantifier": "for all histories of connect, disconnect, reconnect, send, receive, wait and accept with arbitrary answers of the operating system", "why_tests_cant": "The status depends on the whole history of answers of the operating system; tests over loopback see only successful calls.", "anchors": ["src/Os/Network/NetworkBase.cpp", "src/Os/Network/TcpClient.cpp", "src/Os/Network/TcpServer.cpp", "src/Os/Network/UdpClient.cpp", "src/Os/Network/UdpServer.cpp"]}
{"id": "C134", "title": "Notification of socket events reaches the notificator that is set, and only it", "statement": "An event on a registered socket calls the notificator most recently passed to setNotificator exactly once; after unsetNotificator has returned it is not called any more and may be destroyed; without one nothing is called.", "quantifier": "for all interleavings of any number of notifying threads with setting, unsetting and destroying notificators", "why_tests_cant": "The failing interleavings are a few instructions wide: between the test of the pointer, its second read, and the virtual call.", "anchors": ["src/Os/Async/Network/EventCatcherBase.cpp", "src/Os/Async/Network/Registrar.cpp", "include/FlameIDE/Common/ReferenceWrapper.hpp", "src/Os/Posix/Async/Network/EventCatcher.cpp", "src/Os/Windows/Async/Network/MessageDispatchThread.cpp"]}
{"id": "C135", "title": "A mechanism answers every query through the callbacks of its own class", "statement": "Each query of a SoftPkcs11 mechanism is answered by the callback its class supplied for that query, for the object itself, or by the default refusal; copies and assigned objects can be queried as well.", "quantifier": "for all sets of overridden callbacks and all sequences of construction, copying, assignment and destruction", "why_tests_cant": "The callbacks are function pointers copied by implicit copy operations; which object they end up being called for depends on the history of copies.", "anchors": ["src/Crypto/SoftPkcs11/Mechanisms/Base/Mechanism.cpp", "src/Crypto/SoftPkcs11/Mechanisms/Base/Mechanism.hpp"]}
{"id": "C136", "title": "A builder's substep tests true exactly if it succeeded", "statement": "Converting a substep to bool tells whether it has been carried out successfully, getResult gives the result it left, and a substep can be tested before it was carried out and constructed with arguments.", "quantifier": "for all result and error types, success values and implementations of the step", "why_tests_cant": "The repository has no test of substeps; the meaning of the test depends on the success value and the indeterminate initial error.", "anchors": ["include/FlameIDE/Templates/Builder.hpp"]}
{"id": "C137", "title": "Fixed-capacity vector operations accept the array's own elements as arguments", "statement": "a.pushBack(a[i]), a.insert(it, a[i]), a.emplace(it, a[i]) and a.insert(it, first, last) with iterators into a itself insert the values those elements had before the call.", "quantifier": "all arrays, all element indices and ranges, all insert positions", "why_tests_cant": "The outcome depends on the relative position of source and destination and on what moving leaves behind, for all sizes.", "anchors": ["include/FlameIDE/Templates/Array.hpp: pushBack (770-778), insert (809-831, 868-904), emplace (906-929)"]}
{"id": "C138", "title": "String operations accept the string's own characters as arguments", "statement": "s.pushBack(s[i]), s += s.data() + k, s.insert(it, s[i]), s.insert(it, first, last) with iterators into s, s = s.data() + k and s = move(s) use the characters s had before the call.", "quantifier": "all strings, all indices, ranges and insert positions", "why_tests_cant": "The outcome depends on spare capacity and on the relative position of source and destination, for all sizes.", "anchors": ["include/FlameIDE/Templates/String.hpp: operator= (268-313), pushBack (564-621), insert (633-747)"]}
{"id": "C139", "title": "List operations accept elements and ranges of lists, including the list's own", "statement": "l.pushBack(x), l.pushFront(x) and l.insert(it, x) with x an element of any list, and l.insert(it, first, last) with first, last iterators of any list, l itself included, insert the values the arguments had when the call was made, and leave every other element as it was.", "quantifier": "all lists, all element values, all positions and ranges (before, around or behind the position)", "why_tests_cant": "Tests can only insert some own ranges at some positions; whether reading the range while nodes are being allocated and linked ever sees a changed list depends on the whole shape of the memory.", "anchors": ["include/FlameIDE/Templates/List.hpp:614-685", "include/FlameIDE/Templates/List.hpp:722-842"]}
{"id": "C140", "title": "HybridVector operations accept the container's own elements as arguments", "statement": "h.pushBack(h[i]), h.insert(it, h[i]) and h.insert(it, first, last) with iterators of h insert the values the arguments had when the call was made.", "quantifier": "all HybridVectors in either storage, all inline capacities, element types, positions, elements and ranges", "why_tests_cant": "The failing cases depend on how full the storage in use is and on the positions relative to each other; reading a destroyed element often looks right in a test.", "anchors": ["include/FlameIDE/Templates/HybridVector.hpp:1666-1693", "include/FlameIDE/Templates/HybridVector.hpp:1772-1891", "include/FlameIDE/Templates/HybridVector.hpp:2023-2053"]}
{"id": "C141", "title": "A variable passed by name keeps its value", "statement": "Passing a variable by name to pushBack, emplaceBack, emplace, Variant::set or the converting constructor of Variant or Object leaves the variable's value unchanged, and an argument that was given up (move(x) or a temporary) is consumed only if its value was stored.", "quantifier": "all containers states, all element types, all value categories of the argument", "why_tests_cant": "Whether the argument survives depends on overload resolution, reference collapsing and on the state (full, unset, reallocating) of the container; tests with trivially movable elements or temporaries never see it.", "anchors": ["include/FlameIDE/Common/Utils.hpp 337-377", "include/FlameIDE/Templates/HybridVector.hpp 1726-1755, 1894-1927", "include/FlameIDE/Templates/CircularArray.hpp 355-418", "include/FlameIDE/Templates/Variant.hpp 464-480, 571-585", "include/FlameIDE/Templates/Object.hpp 117-181", "include/FlameIDE/Templates/Array.hpp 769-797, 906-929", "include/FlameIDE/Templates/Vector.hpp 698-736, 849-878"]}
{"id": "C142", "title": "Copying a shared pointer shares its object, copying a unique pointer is refused", "statement": "After SharedPointer q(p) both pointers refer to the same object: what is written through one is read through the other, and the object has one more owner. UniquePointer objects cannot be copied.", "quantifier": "all executions, all values", "why_tests_cant": "Which constructor a copy selects depends on the constness of the source; the repository's own copying test is commented out.", "anchors": ["include/FlameIDE/Templates/Pointers.hpp 157-161, 191-197, 245-248, 330-363, 421-425, 464-470, 535-539"]}
{"id": "C143", "title": "Type traits name the type they say", "statement": "The traits that remove a modifier (pointer, reference, const, volatile, or all of them) yield the type without it and keep everything else; the traits that add a modifier yield the type with it; IsPointer, IsSigned, IsUnsigned, MakeSigned, MakeUnsigned and NumberLimit classify every integer type and give its counterpart of the same width and its least and greatest value. Consequently Variant::get<T>() and InitializerList<T> can be used with every object type T.", "quantifier": "All C++ types built from fundamental, class and enumeration types with pointers, arrays, references, const and volatile at any depth; both sizes of long.", "why_tests_cant": "The set of types is infinite; a test instantiates the traits with a handful of types, and a type for which a trait does not compile cannot appear in a test at all.", "anchors": ["include/FlameIDE/Common/Traits/Defaults.hpp:43-287", "include/FlameIDE/Common/Traits/Numbers.hpp:41-383", "include/FlameIDE/Common/Traits/Functional.hpp:85-143", "include/FlameIDE/Templates/Variant.hpp:400-412", "include/FlameIDE/Templates/InitializerList.hpp:55-83"]}
{"id": "C144", "title": "An object that holds something tests true exactly if it does", "statement": "Writing `if (p)` for a SharedPointer, a UniquePointer or an Optional is always allowed for an existing variable, and the branch is taken exactly if the variable holds an object that exists. In particular a pointer whose object was moved away, or for which no memory could be obtained, tests false, and every pointer that tests true can be dereferenced.", "quantifier": "for every history of the variables of a program and each of its variables", "why_tests_cant": "The failing test reads through a null or dangling pointer: it usually computes a non-null address and answers true without any visible fault; the guarantee concerns all histories of moves, failed allocations and destructions.", "anchors": ["include/FlameIDE/Templates/Pointers.hpp:415-425", "include/FlameIDE/Templates/Pointers.hpp:533-537", "include/FlameIDE/Templates/Optional.hpp:186-190"]}
{"id": "C145", "title": "Comparing two objects compares what they hold or denote", "statement": "`a == b` is true exactly if the two Optionals hold equal values or are both empty, the two pointers point at the same object, the two Ipv4 addresses have the same numbers and port, the two accepted connections have the same descriptors; `a != b` is the negation of `a == b`; comparing an Optional with a number compares the held value.", "quantifier": "for all pairs of objects in all reachable states", "why_tests_cant": "The comparisons compile and give the expected answer for empty, equal and one-sided cases; that they compare only a converted truth value shows on pairs of filled but different objects, and a claim about all pairs is needed to say when the answer is right.", "anchors": ["include/FlameIDE/Templates/Optional.hpp:35", "include/FlameIDE/Templates/Pointers.hpp:210", "include/FlameIDE/Templates/Pointers.hpp:263", "include/FlameIDE/Os/Network/Ipv4.hpp:40-41", "include/FlameIDE/Os/Async/Network/AcceptedConnection.hpp:15-26"]}
{"id": "C146", "title": "A handler may give its Expected a new value", "statement": "Inside `e.ifError([&](Error &&error) { e = retry(); })` (or ifResult) the handler may assign to `e`: after the handler returned, `e` holds the value the handler gave it, that value is destroyed exactly once in the end, and the following handlers of the chain see it. Both Expected classes.", "quantifier": "for every state of the program's Expected objects and every handler, whatever operations it performs", "why_tests_cant": "The lost value shows only in the interplay of an arbitrary handler with the code that runs after it; the claim is about all handlers, and that the lost value is never destroyed is a claim about every continuation.", "anchors": ["include/FlameIDE/Common/Expected.hpp:197-236", "include/FlameIDE/Templates/Expected.hpp:131-168"]}
{"id": "C147", "title": "Lockers on a semaphore let at most as many threads in as it has permits", "statement": "However many threads guard a section with Locker or UniqueLocker on one Semaphore made with n permits, never more than n of them are inside at once, a waiting thread can go in exactly when fewer than n are inside, and when all have left the semaphore has its n permits again — also when signal handlers run while threads wait.", "quantifier": "every n, every number of threads, every interleaving of constructions, lock, tryLock, unlock and destructions, every pattern of signals interrupting sem_wait", "why_tests_cant": "Needs every interleaving of any number of threads and a signal arriving inside sem_wait.", "anchors": ["src/Os/Threads/Utils.cpp:42-66", "src/Os/Threads/Utils.cpp:80-104", "src/Os/Threads/Utils.cpp:186-205", "src/Os/Threads/Semaphore.cpp:55-80", "src/Os/Posix/Threads/SemaphoreFunctions.cpp:39-69"]}
{"id": "C148", "title": "Data on a registered descriptor is reported whenever it arrived", "statement": "When a descriptor has been registered with Registrar::add and data is waiting in it, the program is told: its descriptor, and no other, is put into the queue of its kind, no matter whether the data came before, during or after the call of add.", "quantifier": "every set of descriptors, every interleaving of data arriving, the three fcntl calls of add and runs of the signal handler", "why_tests_cant": "The window lies between two system calls; a test cannot make data arrive there.", "anchors": ["src/Os/Posix/Async/Network/EventCatcher.cpp:91-115", "src/Os/Posix/Async/Network/EventCatcher.cpp:154-168"]}
{"id": "C149", "title": "A connection taken by the event catcher is handed to the program or closed", "statement": "Every connection the signal handler accepts on a registered listener is given to the program by popTcpServerAcception exactly once, in the order of acceptance, or is closed.", "quantifier": "every capacity of the queue, every history of acceptances, pops and closes", "why_tests_cant": "Depends on the queue being full at the moment a signal is handled, after any history.", "anchors": ["src/Os/Posix/Async/Network/EventCatcher.cpp:117-144", "src/Os/Async/Network/QueuedArray.hpp:75-88"]}
{"id": "C150", "title": "What one end of a TCP connection sends, the other receives", "statement": "Over every execution of send at one end and receive at the other, the bytes received are the bytes given to send, in order and without gaps; receive returns 0 only at the end of the data; a failure of the system is returned as an error with its code as the status.", "quantifier": "all byte sequences, all divisions into calls, all interleavings with the network, all partial acceptances", "why_tests_cant": "Loopback tests see whole small messages accepted at once; partial acceptance, piecewise arrival and broken connections are up to the system.", "anchors": ["src/Os/Posix/Network/TcpSocketFunctions.cpp 24-34, 107-120", "src/Os/Network/TcpClient.cpp 50-76", "src/Os/Network/TcpServer.cpp 100-137"]}
{"id": "C151", "title": "A started thread works on an intact object", "statement": "Whatever the schedule, the thread started by run() only ever touches its object while the object exists in full, and the thread is joined exactly once by the time the object is gone.", "quantifier": "all schedules, all bodies, all sequences of calls by the owner", "why_tests_cant": "The outcome depends on the schedule; tests join at once and see the usual order.", "anchors": ["src/Os/Threads/Thread.cpp 24-33, 51-67, 86-103", "include/FlameIDE/Os/Threads/Thread.hpp 85-123"]}
{"id": "C152", "title": "A failing call is reported with its own error code", "statement": "When a native call fails, the status the library returns is the negated code of that call, also when the library's signal handler runs in the same thread.", "quantifier": "all native outcomes, all runs of the signal handler between the call and the report", "why_tests_cant": "A signal in the window between a call and the reading of errno cannot be produced by a test.", "anchors": ["src/Os/Posix/Async/Network/EventCatcher.cpp 91-152", "src/Os/Posix/Network/TcpSocketFunctions.cpp 24-34"]}
{"id": "C153", "title": "A popped descriptor is the registered socket the event happened to", "statement": "An event popped from the Registrar names a descriptor that is registered at that moment and stands for the very socket the event happened to, of the kind the pop function is for; after remove() no further event of the socket is delivered.", "quantifier": "all histories of opening, adding, removing and closing sockets, arrivals, handler runs and pops, on POSIX and Windows", "why_tests_cant": "It depends on when a signal or message is handled relative to remove(), close() and the reuse of a descriptor number by the system; a test sees one schedule.", "anchors": ["src/Os/Async/Network/Registrar.cpp:64", "src/Os/Posix/Async/Network/EventCatcher.cpp:91", "src/Os/Windows/Async/Network/MessageDispatchThread.cpp:161", "src/Os/Async/Network/QueuedArray.hpp:75"]}
{"id": "C154", "title": "The Windows event catcher can be constructed and destroyed", "statement": "The first use of a registrar constructs the event catcher and returns; at the end of the process its destructor ends the dispatch thread, waits for it and returns; the thread has ended before its object is destroyed.", "quantifier": "all interleavings of the constructing/destroying thread and the dispatch thread; all outcomes of CreateThread, window creation and PostMessage", "why_tests_cant": "Hanging is the absence of an outcome, and the failures of CreateThread, window creation and PostMessage cannot be provoked portably.", "anchors": ["src/Os/Windows/Async/Network/EventCatcher.cpp:17", "src/Os/Windows/Async/Network/MessageDispatchThread.cpp:33", "src/Os/Windows/Async/Network/MessageDispatchThread.cpp:73", "src/Os/Threads/Thread.cpp:24"]}
{"id": "C155", "title": "SIGPOLL is the library's while registrars are used and the program's otherwise", "statement": "While registrars are used every arrival of data on a registered socket reaches the library and the signal never ends the process; if the handler cannot be installed, registering says so; before the first use and after the end the disposition of SIGPOLL is the one the program chose.", "quantifier": "all initial dispositions, all sequences of construction (with every failure of sigemptyset, sigaddset and sigaction), registrations, removals, arrivals of data, sigaction calls by the program and destruction, all descriptors", "why_tests_cant": "Tests run with the default disposition and healthy system calls, remove their sockets or end before more data comes, and install no handlers of their own; data arriving during static destruction is a matter of timing.", "anchors": ["src/Os/Posix/Async/Network/EventCatcher.cpp:30-47", "src/Os/Posix/Async/Network/EventCatcher.cpp:51-65", "src/Os/Posix/Async/Network/EventCatcher.cpp:69-89"]}
{"id": "C156", "title": "A condition variable's waits with a condition, withdrawals and destruction behave as documented", "statement": "wait(functor) returns only once the functor returns true, and at once if it already does; unwait withdraws one announced wait; destroying the object releases whoever still waits and no thread touches it afterwards.", "quantifier": "for every state of the condition variable, every functor outcome sequence, every number of waiters and every interleaving", "why_tests_cant": "Which threads have reached which statement when the destructor runs, and whether the functor became true before the wait, depends on the scheduler.", "anchors": ["src/Os/Threads/ConditionVarable.cpp:8-11", "src/Os/Threads/ConditionVarable.cpp:34-42", "include/FlameIDE/Os/Threads/ConditionVariable.hpp:81-92", "src/Os/Threads/Utils.cpp:156-160"]}
{"id": "C157", "title": "Over a mutex, only the thread that locked it unlocks it", "statement": "With a mutex as its lock, every unlock made by a condition variable is made by the thread that locked the mutex last, as pthread_mutex_unlock and ReleaseMutex require.", "quantifier": "for every number of threads and every interleaving of wait, notify and tryWait", "why_tests_cant": "A default POSIX mutex does not report an unlock by another thread; the consequence depends on the implementation and on the schedule.", "anchors": ["src/Os/Threads/ConditionVarable.cpp:13-32", "src/Os/Threads/ConditionVarable.cpp:44-53", "include/FlameIDE/Os/Threads/ConditionVariable.hpp:76-79"]}
{"id": "C158", "title": "A pipe stream carries bytes in order and reports failures", "statement": "The bytes written to a PipeStream are read from it once and in order, and getStatus() is success exactly if the pipe was made and no read or write has failed so far, also after the stream is moved.", "quantifier": "for every sequence of reads and writes, linear or circular, with short and failing system calls, and moves of the stream", "why_tests_cant": "Failing and short system calls cannot be provoked at every point, and the member left uninitialised by the move constructor often happens to hold zero.", "anchors": ["src/Streams/Posix/PipeStream.cpp:22-96", "src/Streams/Posix/FileStreamReader.cpp:46-76", "src/Streams/Posix/FileStreamWriter.cpp:35-66"]}
{"id": "C159", "title": "The creation prohibitions prohibit what they name, and owners of a resource cannot be copied", "statement": "A class derived from NonCopy, NonMove, NonAssignable, NonDefault or NonCreational lacks exactly the operations named; no class of the library that releases something on destruction can be copied implicitly; classes that declare moves can be moved.", "quantifier": "for every class built from these, at any depth of bases and members, with any declarations of its own", "why_tests_cant": "Absence of an operation is a property of programs that do not compile; a test that compiles cannot show it, and the rules depend on every base and member.", "anchors": ["include/FlameIDE/Common/Traits/CreationProhibitions.hpp:10-54", "include/FlameIDE/Os/Threads/Thread.hpp:81-95", "include/FlameIDE/Templates/RaiiCaller.hpp:11-32"]}
{"id": "C160", "title": "Winsock is started before use and ended once, after the last socket", "statement": "On Windows, once a socket function has found Winsock ready it stays ready until the process ends; Winsock is ended as often as it was started; and sockets still held by static objects at the end are closed before Winsock is ended.", "quantifier": "for every number of threads making their first socket at any time, and every order of constructing static objects and giving them sockets", "why_tests_cant": "A start that is never undone has no visible effect, the race needs the first sockets of two threads to coincide, and what happens during static destruction cannot be observed from a test body.", "anchors": ["src/Os/Windows/Network/SocketFunctions.cpp:281-327", "src/Os/Windows/Network/SocketFunctions.cpp:103-191"]}
{"id": "C161", "title": "Library::find gives the library's symbols, which stay valid while an object for the library lives", "statement": "find(name) on a Library gives the address of that symbol in the library or null if it has none, and null if no library is loaded; addresses found are valid as long as some Library object for the same library lives, and the library is unloaded when the last one is destroyed.", "quantifier": "for every history of loading libraries any number of times, failing loads, moves, assignments and destruction, and every set of symbols", "why_tests_cant": "Asking a library that failed to load for a symbol the program itself has is not something a test of a successful load does, and a library that is never unloaded goes unnoticed.", "anchors": ["src/Os/Library.cpp:27-71", "src/Os/Posix/LibraryFunctions.cpp:10-26", "include/FlameIDE/Os/Library.hpp:31-35"]}
{"id": "C162", "title": "The UBJSON tables describe the format and its values can be held", "statement": "Every UBJSON type has the format's opening and closing marker, a payload type of the format's width and sign, and DATA_PAYLOAD says whether the format puts anything after the marker; markers identify types; Value::getType names the alternative held; ENUMERATED_TYPE_COUNT is the number of types; a BaseValue gives back the value it was made from or assigned.", "quantifier": "for every type of the format, every index of a variant and every value", "why_tests_cant": "A test of some types does not notice a wrong row, and no test can settle an assignment operator that returns nothing: on many compilers it happens to work.", "anchors": ["include/FlameIDE/Ubjson/Types.hpp:10-53", "include/FlameIDE/Ubjson/Traits.hpp:27-178", "include/FlameIDE/Ubjson/Value.hpp:16-63", "include/FlameIDE/Ubjson/BaseValue.hpp:40-90"]}
{"id": "C163", "title": "A named pipe's file is removed when asked for, and no other file is", "statement": "A NamedPipeWriter or NamedPipeStream told to delete its pipe removes the file of that name when the pipe is given up, and one told to keep it does not; nothing else is ever removed; getName gives the pipe's name; open reports success exactly when the pipe was opened.", "quantifier": "for every history of constructing, opening, renaming, moving, assigning and destroying writers and streams, every name and every answer of the system", "why_tests_cant": "A test looks at one pipe that is made and destroyed; removing another file, or the directory, after a move or a second open is not among the things it looks at.", "anchors": ["src/Streams/Posix/NamedPipeWriter.cpp:12-80", "src/Streams/Posix/NamedPipeStream.cpp:12-104", "src/Streams/Posix/NamedPipeReader.cpp:12-63", "include/FlameIDE/Os/Posix/Constants.hpp:43"]}
{"id": "C164", "title": "Running out of memory leaves containers as they were", "statement": "When the allocator answers null, constructing, copying, growing, appending, inserting into or assigning a String, List or Vector leaves every container as it was and usable, loses no memory and touches none it does not have; when memory is available the operation does what it does otherwise.", "quantifier": "for every container, every operation and argument, and every answer of the allocator", "why_tests_cant": "Tests run with memory available; what a failed request does to contents, length and ownership is only visible when it fails, for whichever request it is.", "anchors": ["include/FlameIDE/Templates/String.hpp:195-313,534-661", "include/FlameIDE/Templates/List.hpp:614-780", "include/FlameIDE/Templates/Vector.hpp:396-459", "include/FlameIDE/Templates/Allocator/ObjectAllocator.hpp:78-115", "include/FlameIDE/Templates/Allocator/ArrayAllocator.hpp:100-137"]}
{"id": "C165", "title": "A PKCS#11 module stays initialised while something refers to its library", "statement": "A Pkcs11Library reached through the shared pointers that create() hands out, through copies of them and through Slot objects made from them stays alive, and its module initialised, as long as any of them exists; when the last goes, the library is destroyed and the module finalised. In particular looking at slot->getLibrary() does not change anything.", "quantifier": "all sequences of creating, copying, moving, assigning and dropping pointers to libraries and to slots, of creating slots with and without memory, of looking at a slot's library and of calls on slots", "why_tests_cant": "the lifetime of the library depends on two interleaved families of reference counts; a test runs a few fixed sequences and does not notice a module that is never finalised or is finalised early, since freed memory usually still answers", "anchors": ["src/Crypto/Pkcs11/Pkcs11.cpp:14-36", "src/Crypto/Pkcs11/Slot.cpp:12-29", "include/FlameIDE/Templates/Pointers.hpp:293-460"]}
{"id": "C166", "title": "Registering a socket without memory", "statement": "If there is no memory for the event queue of a socket's kind, Registrar::add reports a failure and the socket is not registered; events, pushes and pops afterwards are defined, other kinds of sockets are unaffected, and registering again when there is memory works.", "quantifier": "all histories of adding sockets (with and without memory), pushing, popping, clearing and events, all kinds and queue sizes", "why_tests_cant": "a test cannot make one particular small allocation of the library fail and then let a network event arrive", "anchors": ["src/Os/Async/Network/Registrar.cpp:22-60", "src/Os/Async/Network/QueuedArray.hpp:57-88"]}
{"id": "C167", "title": "The elements of a growing Vector keep their values whatever their class", "statement": "A Vector may hold objects of any copyable class. When pushBack, emplaceBack, insert or reserve gives it a larger block, every element still reads, can be changed and can be destroyed as before, also if the element is itself a fixed-capacity vector, a hybrid vector, a circular array or a list.", "quantifier": "All element classes, all histories of pushes, removals and reservations, all places the allocator may answer with", "why_tests_cant": "Whether realloc leaves a block where it is or carries it elsewhere depends on the heap; tests with short vectors or trivially copyable elements never see a stale address.", "anchors": ["include/FlameIDE/Templates/Vector.hpp:568-604", "include/FlameIDE/Templates/Allocator/ArrayAllocator.hpp:125-137", "include/FlameIDE/Templates/Array.hpp:417-418", "include/FlameIDE/Templates/List.hpp:326-330", "include/FlameIDE/Templates/CircularArray.hpp:244-246"]}
{"id": "C168", "title": "References into a container stay valid where nothing has to move", "statement": "An iterator to an element of a List stays the iterator to that element, giving the same object, through every insertion and removal elsewhere in the list; only iterators to removed elements dangle. After a reserve that the allocator granted, a Vector or a String takes the reserved number of further elements without moving what it holds and without asking for memory again.", "quantifier": "All lists, vectors and strings, all histories of calls, all reserved sizes, all answers of the allocator", "why_tests_cant": "A dangling iterator or pointer usually still shows the old value in a test, and whether reserved room is really used only shows when memory is short or a block happens to move.", "anchors": ["include/FlameIDE/Templates/List.hpp:614-990", "include/FlameIDE/Templates/Vector.hpp:568-604", "include/FlameIDE/Templates/Vector.hpp:698-743", "include/FlameIDE/Templates/String.hpp:534-621"]}
{"id": "C169", "title": "An exception thrown by an element leaves the container whole", "statement": "When copying, moving or assigning an element throws during a container call, the exception reaches the caller, the container is as it was before or at least usable, every element is still in it or destroyed, and no memory is lost.", "quantifier": "All vectors, static vectors and lists, all contents, positions and inserted values, every single element operation as the one that throws", "why_tests_cant": "There is one failing point per element operation of each call; a test needs an element type that throws at a chosen moment and must account for every object ever constructed.", "anchors": ["include/FlameIDE/Templates/Vector.hpp:698-896", "include/FlameIDE/Templates/Array.hpp:809-947", "include/FlameIDE/Templates/List.hpp:782-842", "include/FlameIDE/Common/Utils.hpp:356-376"]}
{"id": "C170", "title": "Appending takes constant time on average, inserting into a list constant time", "statement": "Filling a Vector with n values moves a number of elements proportional to n and asks the allocator a number of times logarithmic in n, never holding more than half again what is used. Inserting a value at an iterator of a List takes the same time however long the list is. Appending C strings and characters to a String costs a number of carried characters proportional to the text appended, and a String never keeps storage out of proportion to the longest text it held.", "quantifier": "All vectors of any contents and capacity, all numbers of appended values; all lists, all places; all strings and all histories of calls on them", "why_tests_cant": "A test measures a time for a few sizes; it cannot tell a linear total from a slightly larger one, nor bound all lengths.", "anchors": ["include/FlameIDE/Templates/Vector.hpp:698-711", "include/FlameIDE/Templates/Vector.hpp:921-932", "include/FlameIDE/Templates/List.hpp:511-518", "include/FlameIDE/Templates/List.hpp:722-871", "include/FlameIDE/Templates/String.hpp:534-621", "include/FlameIDE/Templates/String.hpp:792-796"]}
{"id": "C171", "title": "A capacity or size a Vector accepts is really there", "statement": "After reserve(n) the vector either has room for n elements and reports it, or is as it was; Vector(n) makes the stated number of elements or fails. No request, however large, makes it report room it does not have.", "quantifier": "All element sizes, all counts of the size type, all contents, all answers of the allocator", "why_tests_cant": "The failing counts are beyond the memory of any test machine; the product of count and element size wraps silently.", "anchors": ["include/FlameIDE/Templates/Vector.hpp:568-604", "include/FlameIDE/Templates/Vector.hpp:439-444", "include/FlameIDE/Templates/Allocator/ArrayAllocator.hpp:98-137"]}
{"id": "C172", "title": "What a UDP client receives is a datagram of its server, whole", "statement": "Over every execution of a UDP server and its clients, with datagrams lost, overtaken and doubled, each receive hands over one single datagram entirely (never parts of two), a client only receives what its server sent to it, and a range of the size told by wait is large enough; a failed call returns the negated code, which becomes the status.", "quantifier": "for all numbers of clients, interleavings of send, receive and wait, losses, reorderings and duplications, datagram and range sizes, other senders", "why_tests_cant": "the network chooses order, losses, duplicates and other senders; tests on the loopback device see one orderly exchange", "anchors": ["src/Os/Network/UdpClient.cpp:29-51", "src/Os/Network/UdpServer.cpp:72-84", "src/Os/Posix/Network/UdpSocketFunctions.cpp:14-105"]}
{"id": "C173", "title": "Data the library protects by its spin lock is protected on Windows too", "statement": "On Windows, calls of several threads on an object whose methods run under threads::Spin (the shared counter, the event queues) have the effect of the same calls one after the other: no increment and no event is lost.", "quantifier": "for all classes whose methods run under a Spin, numbers of threads, interleavings of single reads, writes and Interlocked calls, capacities and values", "why_tests_cant": "the loss needs two threads inside a few instructions at the same time; the tests use the counter from one thread", "anchors": ["src/Os/Windows/Threads/SpinFunctions.cpp:25-52", "include/FlameIDE/Os/Threads/Counter.hpp:43-64", "src/Os/Async/Network/QueuedArray.hpp:36-105", "src/Os/Threads/Utils.cpp:54-64"]}
{"id": "C174", "title": "Objects meant for several threads are used by them without data races", "statement": "Threads that call the counters, event queues, condition variables, the notificator setters and the functions making sockets at the same time never race for their members in the sense of the language: of two accesses by different threads to one variable, one of them a write, one happens before the other.", "quantifier": "for all numbers of threads, calls and interleavings of single accesses", "why_tests_cant": "A race shows in no test run on the machine at hand; that there is none is a statement about the order of all accesses in all interleavings.", "anchors": ["src/Os/Threads/Utils.cpp:186-205", "include/FlameIDE/Os/Threads/Counter.hpp:43-64", "src/Os/Async/Network/QueuedArray.hpp:50-107", "src/Os/Threads/ConditionVarable.cpp:10-55", "src/Os/Async/Network/EventCatcherBase.cpp:14-30", "src/Os/Windows/Network/SocketFunctions.cpp:281-327"]}
{"id": "C175", "title": "A UBJSON value kept in allocated memory behaves like a value", "statement": "A BaseValue that keeps its value behind a shared pointer holds the value it was made from or last given: a copy has a value of its own, destroying one holder does not affect another, a moved-from holder is empty, and the memory of a value is given back when its holders are gone.", "quantifier": "every program that makes, copies, moves, assigns, writes, reads and destroys any number of such holders in any order", "why_tests_cant": "Sharing, early destruction and leaks depend on the whole history of copies and destructions; tests try a few histories and leaks or reads of freed memory stay unnoticed.", "anchors": ["include/FlameIDE/Ubjson/BaseValue.hpp:92-160", "include/FlameIDE/Templates/Pointers.hpp:317-435"]}
{"id": "C176", "title": "The mutex callbacks keep the threads of a module apart", "statement": "A PKCS#11 module initialised with the library's default arguments that guards a section with LockMutex and UnlockMutex never has two threads in it, and a thread can enter whenever nobody is inside.", "quantifier": "any number of threads, every interleaving of their calls, all outcomes of the native mutex calls, both sets of callbacks a program can be linked with", "why_tests_cant": "Overlapping threads and failing native calls do not occur in tests, and the linked set of callbacks is chosen by the build.", "anchors": ["src/Crypto/Pkcs11/MutexReal/InitializeArgsCallbacks.cpp:42-106", "src/Crypto/Pkcs11/MutexStub/InitializeArgsCallbacks.cpp:11-29", "src/Crypto/Pkcs11/InitializeArgs.cpp:10-17"]}
{"id": "C177", "title": "Fixed-capacity and hybrid vectors destroy every element they created", "statement": "Over any history of calls on a StaticVector (Array without the pure flag) or a HybridVector and its destruction at the end, including the containers left when a HybridVector switches between inline and allocated storage, every element object that was constructed is destroyed.", "quantifier": "all capacities, all element types, all histories of supported calls", "why_tests_cant": "Leaked objects are invisible to assertions about values and depend on unbounded combinations of inner erases, emplaces and switches of the storage.", "anchors": ["include/FlameIDE/Templates/Array.hpp: erase (931-947), emplace (906-929), ~Array (502-507)", "include/FlameIDE/Templates/HybridVector.hpp: useArray, useVector (1989-2053), clean, reset", "include/FlameIDE/Templates/Variant.hpp: reset (541-549)"]}
{"id": "C178", "title": "A HybridVector needs no memory while its elements fit into it", "statement": "While the elements fit the inline capacity, no call on a HybridVector depends on the allocator; when a call needs memory and is refused it, the container is as it was and the call returns.", "quantifier": "All inline capacities, element types, contents, histories and answers of the allocator", "why_tests_cant": "A test would have to run with an exhausted allocator at every call of every history; not returning cannot be observed by a test.", "anchors": ["include/FlameIDE/Templates/HybridVector.hpp:1666-1927", "include/FlameIDE/Templates/HybridVector.hpp:2023-2053", "include/FlameIDE/Templates/Vector.hpp:640-736"]}
{"id": "C179", "title": "An object assigned to itself is as it was", "statement": "Assigning or moving an object of the library onto itself leaves it as it was: same value, same resource, still usable, nothing destroyed or lost.", "quantifier": "All objects of every class with an assignment, all their states", "why_tests_cant": "A test can try one state per class; whether anything is destroyed, leaked or dangling afterwards does not show in the result, and for half of the classes the outcome is undefined behaviour that may look right.", "anchors": ["include/FlameIDE/Templates/Pointers.hpp:371-395", "include/FlameIDE/Templates/Pointers.hpp:490-501", "include/FlameIDE/Templates/Optional.hpp:115-154", "include/FlameIDE/Templates/Variant.hpp:488-510", "include/FlameIDE/Templates/Object.hpp:141-152", "include/FlameIDE/Templates/CircularArray.hpp:297-315", "include/FlameIDE/Common/Expected.hpp:128-155", "src/Os/Network/NetworkBase.cpp:84-93", "src/Os/Library.cpp:54-59", "src/Os/Threads/Mutex.cpp:31-45", "src/Os/Threads/Thread.cpp:35-49"]}
{"id": "C180", "title": "A container that was moved from can be used like a new one", "statement": "After a Vector, String, List or HybridVector was moved into another one, what is left of it is an empty container: it can be filled, emptied and destroyed like a new one, through any number of calls, without touching the container that took the elements over.", "quantifier": "all containers, contents, capacities and histories of calls after the move", "why_tests_cant": "Tests move from a container and destroy it; whether it can be filled again depends on what capacity it had before and on which call comes first, over histories of any length", "anchors": ["include/FlameIDE/Templates/Vector.hpp: pushBack, emplaceBack, popBack, insert, erase, reserve, clean, nextCapacity", "include/FlameIDE/Templates/List.hpp: pushBack, pushFront, insert, popBack, popFront, erase, clean, size", "include/FlameIDE/Templates/String.hpp: pushBack(raw) 597-621, operator=(raw) 289-313, popBack, erase", "include/FlameIDE/Templates/HybridVector.hpp: constructors, operator=, clone, capacity"]}
{"id": "C181", "title": "A List can be used as a stack or a queue", "statement": "Pushing and popping at either end of a List, in any order, works as for a double-ended queue: every call is carried out, the contents are right from both ends, and the list can be destroyed at any time with every node released.", "quantifier": "For every history of pushBack, pushFront, popBack, popFront and clean on a new list that never pops from an empty list.", "why_tests_cant": "The outcome depends on the whole history (whether and from which end the list ever ran empty), not on single calls; a dangling head or tail often seems to work when run.", "anchors": ["include/FlameIDE/Templates/List.hpp:614-720", "include/FlameIDE/Templates/List.hpp:873-901", "include/FlameIDE/Templates/List.hpp:520-533"]}
{"id": "C182", "title": "Objects are put at addresses suitable for their type", "statement": "Every object the containers and holders create - an element of a Vector, String, List or Array, the value of an Optional, an AlignedObject or an Object - is at an address that is a multiple of its type's alignment, lies within the storage meant for it and overlaps no neighbour.", "quantifier": "For every type (size and power-of-two alignment), every element position, and every address malloc may return or the compiler may choose for the container.", "why_tests_cant": "The address malloc returns is usually more strictly aligned than promised, and a misaligned access usually works, so a run shows nothing; which addresses are possible is a matter of the promises of malloc and the language.", "anchors": ["include/FlameIDE/Templates/AlignObject.hpp:31-133", "include/FlameIDE/Templates/Object.hpp:71-97", "include/FlameIDE/Templates/Allocator/MallocAllocator.hpp:59-72", "include/FlameIDE/Templates/Allocator/ArrayAllocator.hpp:98-116", "include/FlameIDE/Templates/List.hpp:62-64", "include/FlameIDE/Templates/Array.hpp:417-418"]}
{"id": "C183", "title": "Several Pkcs11Library objects work on the modules they name and do not disturb each other", "statement": "A program may hold any number of Pkcs11Library objects, for the same or for different modules. An object that says it is initialised uses the module it was created for and no other; that module is in memory and initialised; and whatever is called on the other objects - creating, initialising, finalising, destroying them - the module stays initialised. An initialisation that fails leaves the module as it was, so that it can be repeated.", "quantifier": "all modules and programs, all numbers of objects, all histories of creating, initialising, finalising and destroying them, all answers of the modules", "why_tests_cant": "whether objects disturb each other depends on which modules are the same, on which module the program is linked with, on the order of the calls and on when the linker unmaps a module; a test with one token sees one object", "anchors": ["src/Crypto/Pkcs11/Pkcs11.cpp:14-88", "src/Crypto/Pkcs11/Pkcs11.cpp:228-251", "src/Os/Library.cpp:44-71"]}
{"id": "C184", "title": "Static objects of the program can use the library", "statement": "The library keeps its event catcher, the context of the soft token and the like in static objects that come into being at their first use. A program may use the library - register and withdraw sockets, initialise and destroy PKCS#11 libraries, ask sockets for their properties - from the constructors and destructors of its own static objects, in any order, and from main; whatever it uses is there.", "quantifier": "all programs: any number of static objects in any order, any uses in their constructors, destructors and in main, all of the library's static objects", "why_tests_cant": "whether an object is still there when a static destructor uses it depends on the order in which everything in the whole program was first used; the objects' memory stays in place, so a test sees no difference", "anchors": ["src/Os/Posix/Async/Network/EventCatcher.cpp:194-198", "src/Os/Windows/Async/Network/EventCatcher.cpp:95-99", "src/Crypto/SoftPkcs11/GlobalContext.cpp:96-100", "src/Os/Network/NetworkBase.cpp:52-67", "src/Os/Windows/Network/SocketFunctions.cpp:281-285"]}
{"id": "C185", "title": "A capacity a string reports is really there", "statement": "After resize(n) or reserve(n) on a string, capacity() characters can be written, the characters the string held can still be read, and a request that cannot be met changes nothing a caller relies on.", "quantifier": "all character types, strings, numbers of characters and states of memory", "why_tests_cant": "The numbers for which the multiplication by the character size wraps are far outside what a test asks for; whether every request below them is right is a statement about all of them.", "anchors": ["include/FlameIDE/Templates/String.hpp:534-562", "include/FlameIDE/Templates/Allocator/ArrayAllocator.hpp:118-137"]}
{"id": "C186", "title": "Functions of the library report that memory ran out", "statement": "When there is not enough memory, constructing a Library, reading a PKCS#11 module's slot or interface list and writing to a RamStream return and tell that they failed, or what part was done.", "quantifier": "all arguments, states of the objects and states of memory", "why_tests_cant": "A test cannot make every single allocation fail, and a call that never returns gives no result to test.", "anchors": ["src/Os/Library.cpp:27-42", "src/Os/Library.cpp:81-136", "src/Crypto/Pkcs11/Pkcs11.cpp:183-224", "src/Crypto/Pkcs11/Pkcs11.cpp:253-288", "src/Streams/RamStream.cpp:48-68"]}
{"id": "C187", "title": "Comparing two iterators compares where they stand", "statement": "For two non-null iterators over one sequence, whatever adaptors (Iterator, ConstIterator, ReverseIterator, ConstReverseIterator) they are stacked from and whether or not they are const: == and != tell whether they stand at the same element, <, >, <=, >= tell which one is visited first, b - a is the number of ++ from a to b; += n and -= n are n times ++ and --, and -- undoes ++. Expressions for which there is no such answer (iterators of different kinds, order or distance of list iterators) do not compile.", "quantifier": "all stacks of adaptors of any depth over pointers and list iterators, const and non-const operands, all positions", "why_tests_cant": "Tests compare a few non-const iterators of one type; the answers depend on which operator the compiler picks for each combination of types and const, for stacks of unbounded depth.", "anchors": ["include/FlameIDE/Templates/Iterator/BaseIterator.hpp:49-66", "include/FlameIDE/Templates/Iterator/Operators.hpp:179-241", "include/FlameIDE/Templates/Iterator/Iterator.hpp:174-217"]}
{"id": "C188", "title": "An iterator reads what it stands at; a const one does not let it be written", "statement": "For every stack of iterator adaptors over a pointer or list iterator, *it compiles and refers to the element the iterator stands at, and it[n] of a random access iterator to the element n steps along; the reference allows writing exactly if neither a const adaptor nor a pointer to const takes part.", "quantifier": "all stacks of adaptors of any depth, default or explicit traits, const and non-const objects, all offsets", "why_tests_cant": "Which operator is chosen, and whether its body compiles, is settled by the compiler for each of infinitely many types; a test only exercises types that compile.", "anchors": ["include/FlameIDE/Templates/Iterator/Operators.hpp:63-85", "include/FlameIDE/Templates/Iterator/Operators.hpp:203-255", "include/FlameIDE/Templates/Iterator/IteratorTraits.hpp:28-57"]}
{"id": "C189", "title": "A module shared by several library objects is called in the order it requires", "statement": "Seen from a PKCS#11 module: however many Pkcs11Library objects a program makes for it and in whatever order they are used, the module is called only between a successful C_Initialize and the next C_Finalize, each C_Initialize is followed by one C_Finalize before the next one, and the module is not unloaded while it is initialised. (C183 says what the objects see of each other.)", "quantifier": "For every number of objects, every sequence of create, initialize, queries, finalize and destruction of them in any order, and every answer of the module.", "why_tests_cant": "A test uses one object; what matters is the interleaving of the lifetimes of several objects over one module with one initialised flag, for all histories.", "anchors": ["src/Crypto/Pkcs11/Pkcs11.cpp:14-100", "src/Os/Library.cpp:1-60", "include/FlameIDE/Crypto/Pkcs11/Pkcs11.hpp:108-162"]}
{"id": "C190", "title": "A HybridVector used as a stack takes constant time per call on average", "statement": "Adding elements at the back of a HybridVector and taking the last ones out again, in any order, carries a number of elements from one place to another that is proportional to the number of calls; as long as no more than N elements are pushed nothing is carried and the allocator is not asked.", "quantifier": "All inline capacities N, all element types and values, all histories of pushBack, popBack and erase of any length, an allocator that always answers", "why_tests_cant": "The cost of a single call depends on where the elements are at that moment; a test around one size sees either a cheap call or a switch of storage, not the sum over every history.", "anchors": ["include/FlameIDE/Templates/HybridVector.hpp:1666", "include/FlameIDE/Templates/HybridVector.hpp:1757", "include/FlameIDE/Templates/HybridVector.hpp:1929", "include/FlameIDE/Templates/HybridVector.hpp:1989", "include/FlameIDE/Templates/HybridVector.hpp:2023"]}
{"id": "C191", "title": "What is written into a file through streams is read back through streams", "statement": "After any number of transfers by writing and reading file streams over one file, the file holds what it held followed by the bytes the writers reported as written, in that order, and every reader has received, in order and without gaps or repeats, a beginning of it; a reader that goes on reading receives all of it.", "quantifier": "all initial contents, all histories of reads and writes by streams on any number of open file descriptions, including short and failing transfers", "why_tests_cant": "Depends on which descriptors share an open file description and on how reads, writes, short transfers and failures interleave over an unbounded history.", "anchors": ["src/Streams/Posix/FileStreamReader.cpp 46-59", "src/Streams/Posix/FileStreamWriter.cpp 35-48"]}
{"id": "C192", "title": "A serialised message arrives as the values that were sent", "statement": "If one program serialises messages into a buffer and sends what it serialised, through a TCP connection, a RamStream or a file, and another program, on a machine of any byte order, deserialises what it received with the same sequence of types, it gets the values that were sent, message by message.", "quantifier": "all messages (whole numbers and parts of numbers), both wire orders, both byte orders of both machines, all divisions into transfers, all histories of the carrier", "why_tests_cant": "needs two machines of different byte order and every division of the bytes into transfers; a test sees one", "anchors": ["include/FlameIDE/Templates/Serialization/Serializer.hpp:94-122", "include/FlameIDE/Templates/Serialization/Deserializer.hpp:99-136", "src/Os/Posix/Network/TcpSocketFunctions.cpp:107-120", "src/Streams/RamStream.cpp"]}
{"id": "C193", "title": "A range visits what it was made from", "statement": "A loop over a range made from an array, a pointer and a size, a container, two iterators or the bytes of a value runs on exactly those elements, each once and in order; what the loop stores goes there and nowhere else; a range made without arguments is empty, and every maker the header declares can be called.", "quantifier": "all memories, places, sizes, loop bodies, iterator types and container types", "why_tests_cant": "Every position, size and loop body; that nothing outside is touched; makers whose body is wrong are only noticed when somebody calls them.", "anchors": ["include/FlameIDE/Templates/Range.hpp:82", "include/FlameIDE/Templates/Range.hpp:123", "include/FlameIDE/Templates/Range.hpp:178", "include/FlameIDE/Templates/Range.hpp:195", "include/FlameIDE/Common/Utils.hpp:423"]}
{"id": "C194", "title": "Every PKCS#11 attribute can be wrapped with its value", "statement": "For every attribute of the enumeration, wrapper::Attribute can be instantiated and holds a value of the attribute's type; each attribute has exactly one value type.", "quantifier": "all attributes, and all tables of value types", "why_tests_cant": "A class template nobody instantiates is never compiled; instantiating it for one attribute says nothing about the others.", "anchors": ["include/FlameIDE/Crypto/Pkcs11/Attribute.hpp:29", "include/FlameIDE/Crypto/Pkcs11/Attribute.hpp:1301"]}
{"id": "C195", "title": "A Vector of Strings keeps its texts through every insertion and removal", "statement": "After any sequence of pushBack, insert, emplace, erase, popBack and clean on a Vector<String>, the elements have exactly the texts a list treated the same way would have, and no call has undefined behaviour.", "quantifier": "all vectors of strings, all positions and ranges, all arguments, copied or moved, with and without room", "why_tests_cant": "Whether the container's choice of element operation (copy assign, move assign, construct, destroy) fits what the element class supports depends on both at once; tests with int or with insertion at the end never assign to a moved-from or destroyed element.", "anchors": ["include/FlameIDE/Templates/Vector.hpp", "include/FlameIDE/Templates/String.hpp"]}
{"id": "C196", "title": "A fixed-capacity Array of Strings keeps its texts", "statement": "After any insertion, removal, copy, move or assignment, an Array<String> with room holds exactly the texts a list treated the same way would hold; without room it is unchanged; no call has undefined behaviour.", "quantifier": "all arrays of strings of every capacity, all positions and ranges, all arguments and sources", "why_tests_cant": "Needs the container's choice of element operation and String's own operations together, at every position and fill level; tests use trivially copyable elements.", "anchors": ["include/FlameIDE/Templates/Array.hpp", "include/FlameIDE/Templates/String.hpp"]}
{"id": "C197", "title": "Every copy of the library in a Windows process gets its events", "statement": "On Windows the thread that receives socket events gets a window of its own in every process, however many modules of the process contain the library and whatever window classes the program uses; if the window cannot be made the caller can tell and nothing is left behind; when the thread ends, exactly what it made is given back and sockets are refused from then on.", "quantifier": "all numbers of copies of the library in a process, all interleavings of their threads' starts and ends, all uses of the class name by the program, all failures of the system", "why_tests_cant": "The name is registered per process: a test links the library once and registers no window class, so it never meets the second registration, the refused thread's clean-up or a handle outliving its window.", "anchors": ["src/Os/Windows/Async/Network/MessageDispatchThread.cpp", "src/Os/Windows/Async/Network/EventCatcher.cpp"]}
{"id": "C198", "title": "A HybridVector of Strings keeps its texts whatever the storage", "statement": "A HybridVector of Strings behaves as a list of texts under pushBack (copy and move), insert, emplace, erase and popBack, however often the strings are carried from the built-in array to the heap vector and back; no text is lost, duplicated or read after its storage was released.", "quantifier": "for every capacity of the built-in array, every content of the container in either storage, every string argument and every sequence of calls", "why_tests_cant": "the outcome depends on the String's own moves and assignments in each of the two storages and on the switch between them; a test shows one capacity and one history", "anchors": ["include/FlameIDE/Templates/HybridVector.hpp:1666-1755", "include/FlameIDE/Templates/HybridVector.hpp:1757-1771", "include/FlameIDE/Templates/HybridVector.hpp:1773-1843", "include/FlameIDE/Templates/HybridVector.hpp:1894-1979", "include/FlameIDE/Templates/HybridVector.hpp:1989-2053", "include/FlameIDE/Templates/Variant.hpp:466-504"]}
{"id": "C199", "title": "Strings held by an Optional, a StaticArray or an InitializerList are the strings they were given", "statement": "An Optional<String> set by copy or by move, when empty or filled, holds the text it was given, and takes over emptiness from an empty Optional; copying or assigning a StaticArray of Strings gives every place the source's text; an InitializerList of Strings, and a StaticArray made from one, hold the arguments' texts in order; named arguments keep theirs.", "quantifier": "for every string argument, every string already held, every number of places and every mixture of named and temporary arguments", "why_tests_cant": "the result depends on which of String's copy construction, copy assignment, move construction and move assignment each holder calls on an object that may be default constructed, moved from or full; tests hold numbers", "anchors": ["include/FlameIDE/Templates/Optional.hpp:68-266", "include/FlameIDE/Templates/Array.hpp:1277-1370", "include/FlameIDE/Templates/InitializerList.hpp:56-101"]}
{"id": "C200", "title": "A List of Strings keeps its texts; what is moved in is taken over", "statement": "A List of Strings behaves as a list of texts under pushBack, pushFront, insert, range insert, erase, popBack, popFront, clean, copying and construction from an initializer list, forwards and backwards; a string given by rvalue reference is taken over without being copied.", "quantifier": "for every history of calls, every string (default constructed, moved from or full) and every list it is applied to", "why_tests_cant": "the element's own copy construction is called for every node, in ranges twice; whether a text is lost depends on the string's state and the position, and tests use numbers", "anchors": ["include/FlameIDE/Templates/List.hpp:342-350", "include/FlameIDE/Templates/List.hpp:366-400", "include/FlameIDE/Templates/List.hpp:614-871", "include/FlameIDE/Templates/Allocator/ObjectAllocator.hpp:78-124"]}
{"id": "C201", "title": "A CircularArray of Strings is a bounded queue of texts", "statement": "A CircularArray of Strings behaves as a bounded queue of texts under both pushBack forms, emplaceBack(), popFront and clean; a string handed over by rvalue reference is taken over if there is room and left alone if there is none; a copy or a moved-to array holds the same texts, a moved-from array is empty, and destroying an array destroys each string once.", "quantifier": "for every capacity, every history of calls, every position of the oldest element and every string (default constructed, moved from or full)", "why_tests_cant": "the ring wraps at every offset and each call runs the element's own constructors and destructor; double destruction and lost strings only show for owning element types in particular ring positions", "anchors": ["include/FlameIDE/Templates/CircularArray.hpp:263-295", "include/FlameIDE/Templates/CircularArray.hpp:331-428", "include/FlameIDE/Common/Utils.hpp:356-376"]}
{"id": "C202", "title": "A Vector of Vectors keeps its inner sequences", "statement": "A Vector of Vectors holds exactly the vectors appended to it (by copy, by move or in place), in order; growing, dropping, cleaning and copying the outer vector leave the other inner sequences as they were; every inner vector can go on being used as a vector; a vector moved in is left empty and usable.", "quantifier": "for every history of calls on the outer and the inner vectors, all capacities and all element values", "why_tests_cant": "inner capacities depend on how each vector got in (copied: exactly its size, moved: its old capacity), and whether a later append grows, never returns or is undefined depends on that history", "anchors": ["include/FlameIDE/Templates/Vector.hpp:396-437", "include/FlameIDE/Templates/Vector.hpp:568-615", "include/FlameIDE/Templates/Vector.hpp:698-743"]}
{"id": "C203", "title": "A Vector of UniquePointers destroys each object once, when it leaves the vector", "statement": "A Vector of UniquePointers owns the objects moved or emplaced into it: an object stays alive while its pointer is in the vector, whatever the vector does meanwhile, and is destroyed exactly once when its pointer is dropped, erased or the vector is cleaned or destroyed.", "quantifier": "for every history of pushBack(&&), emplaceBack, popBack, erase of one or of a range, clean and reserve, with null pointers among them", "why_tests_cant": "erasing shifts owners by move assignment, which destroys what the target owned; whether an object is destroyed twice or never depends on the whole history of positions", "anchors": ["include/FlameIDE/Templates/Vector.hpp:606-615", "include/FlameIDE/Templates/Vector.hpp:713-743", "include/FlameIDE/Templates/Vector.hpp:880-920", "include/FlameIDE/Templates/Pointers.hpp:463-547"]}
{"id": "C204", "title": "A fixed-capacity Array of UniquePointers destroys each object once, and makes no others", "statement": "A fixed-capacity Array (StaticVector) of UniquePointers owns the objects moved or emplaced into it: each is destroyed exactly once, when its pointer leaves the array or the array is destroyed; a pointer refused because the array is full keeps its object; and no call makes an object the caller did not ask for.", "quantifier": "all capacities; all histories of pushBack(&&) (also of null pointers), emplaceBack, insert(it, &&), emplace, popBack, clean, erase(it) and erase(b, e) with positions inside the array", "why_tests_cant": "Double destruction, leaks and surplus objects depend on the whole history of calls; a test with trivially destructible elements shows none of them.", "anchors": ["include/FlameIDE/Templates/Array.hpp:780-807", "include/FlameIDE/Templates/Array.hpp:833-857", "include/FlameIDE/Templates/Array.hpp:906-969", "include/FlameIDE/Templates/Pointers.hpp:463-507"]}
{"id": "C205", "title": "A CircularArray of UniquePointers is a bounded queue that owns its objects", "statement": "A CircularArray of UniquePointers owns what is moved or emplaced into it: an object stays alive while its pointer waits, is destroyed exactly once when popFront removes it or the array is destroyed, oldest first, and an object refused because the array is full is not taken over. This also holds for an array made by moving from another.", "quantifier": "all capacities; all histories of pushBack(&&) (also of null pointers), emplaceBack() and popFront(), followed by the destructor", "why_tests_cant": "Whether an object leaks or is destroyed twice depends on where the ring stands after the whole history; tests with numbers show neither.", "anchors": ["include/FlameIDE/Templates/CircularArray.hpp:263-295", "include/FlameIDE/Templates/CircularArray.hpp:366-376", "include/FlameIDE/Templates/CircularArray.hpp:414-428", "include/FlameIDE/Templates/Pointers.hpp:463-507"]}
{"id": "C206", "title": "A HybridVector of UniquePointers destroys each object once, whatever the storage", "statement": "A HybridVector of UniquePointers owns the objects moved or emplaced into it: none is lost, shared or destroyed when the pointers are carried from the built-in array to the heap or back, and each is destroyed exactly once, when its pointer is removed, the container is cleaned or destroyed.", "quantifier": "all built-in capacities from 1 on; all histories of pushBack(&&) (also of null pointers), emplaceBack(), popBack, clean, erase(it) and erase(b, e) with positions inside the container, given that memory can be had, followed by the destructor", "why_tests_cant": "The storage changes depend on the sizes along the history; only an owning element shows an object destroyed twice or never, and tests use numbers.", "anchors": ["include/FlameIDE/Templates/HybridVector.hpp:1463-1468", "include/FlameIDE/Templates/HybridVector.hpp:1696-1771", "include/FlameIDE/Templates/HybridVector.hpp:1929-2053", "include/FlameIDE/Templates/Pointers.hpp:463-507"]}
{"id": "C207", "title": "A vector of shared pointers keeps its objects exactly as long as somebody points at them", "statement": "An object whose SharedPointer is kept in a Vector is alive as long as an element (or another pointer) points at it, whether the pointer was put in by copy or by move and whether copies of the element come and go; when the last pointer to it is removed it is destroyed, once.", "quantifier": "every history of pushBack of a new pointer by copy or by move, uses of an element's object, copies taken of an element or of the whole vector and dropped, popBack, clean, and move assignment of a new pointer to an element, on a new Vector, if memory can be had", "why_tests_cant": "which objects are alive depends on the whole history of copies and moves; a use of a destroyed object or a leak shows no failure in a test", "anchors": ["include/FlameIDE/Templates/Pointers.hpp:293-460", "include/FlameIDE/Templates/Vector.hpp:569-604", "include/FlameIDE/Templates/Vector.hpp:698-743"]}
