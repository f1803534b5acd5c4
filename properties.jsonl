{"id": "C01", "title": "Element handles identify elements uniquely", "statement": "Composing a handle from an element type and a local number and then asking the handle for its type and number gives back exactly those two; two different (type, number) pairs never share a handle, and no composed handle equals the invalid handle.", "quantifier": "all six element types and every local number representable in the 29-bit id field", "why_tests_cant": "There are 2^29 ids per type; only a bit-vector argument covers the carry between id and type fields and the collision with the invalid handle.", "anchors": [{"file": "Source/Headers/inmost_data.h", "symbols": ["ComposeHandle", "ComposeHandleNum", "GetHandleID", "GetHandleElementNum", "GetHandleElementType", "InvalidHandle"]}]}
{"id": "C02", "title": "Creating a marker never returns one that is in use", "statement": "A marker returned by CreateMarker (or CreatePrivateMarker) is different from, and shares no bit with, every marker that was created earlier and not yet released; creation fails only when all marker bits are in use.", "quantifier": "every history of create/release calls, for every capacity of the marker space", "why_tests_cant": "Freshness depends on the whole allocation history; tests exercise only a few histories.", "anchors": [{"file": "Source/Mesh/mesh.cpp", "symbols": ["Mesh::CreateMarker", "Mesh::CreatePrivateMarker", "Mesh::ReleaseMarker", "Mesh::ReleasePrivateMarker"]}]}
{"id": "C03", "title": "Markers on an element are independent", "statement": "Setting or removing one marker on an element makes GetMarker report it set (resp. unset) on that element, changes no other live marker on that element, and changes no marker on any other element.", "quantifier": "all markers, all elements, all prior marker contents", "why_tests_cant": "The marker bytes form a 2^128-state space per element; independence is a universally quantified frame property.", "anchors": [{"file": "Source/Headers/inmost_mesh.h", "symbols": ["Mesh::SetMarker", "Mesh::GetMarker", "Mesh::RemMarker"]}, {"file": "Source/Mesh/mesh.cpp", "symbols": ["Mesh::CreateMarker"]}]}
{"id": "C04", "title": "Releasing a marker leaves every other live marker untouched and makes the bit available again", "statement": "After ReleaseMarker(m, mask) no other live marker stops being live, m is no longer live, some later CreateMarker can return it, and with cleanup over a type mask no element of those types still carries m.", "quantifier": "every allocation history and every element population", "why_tests_cant": "Quantifies over all histories of create/release/set.", "anchors": [{"file": "Source/Mesh/mesh.cpp", "symbols": ["Mesh::ReleaseMarker", "Mesh::ReleasePrivateMarker"]}]}
{"id": "C05", "title": "The dynamic array container behaves as a sequence", "statement": "For every sequence of push_back, pop_back, resize, insert, erase (single and range), replace and assign calls, the contents of the array are those of the mathematical sequence under the same operations, and no access is outside the allocated storage.", "quantifier": "all operation histories and all lengths", "why_tests_cant": "Reallocation boundaries (powers of two) and range boundaries are unbounded; tests sample few of them.", "anchors": [{"file": "Source/Headers/container.hpp", "symbols": ["array::push_back", "array::erase", "array::insert", "array::replace", "array::resize", "array::growth_formula", "shell"]}]}
{"id": "C06", "title": "Chunked arrays keep contents across growth and shrink", "statement": "Resizing a chunked array preserves every element below the smaller of the old and new sizes, newly exposed elements have the requested fill value, and element k is always found at the same place it was stored.", "quantifier": "every sequence of sizes and every index", "why_tests_cant": "Chunk boundaries recur at every multiple of the chunk size; all sizes must be covered.", "anchors": [{"file": "Source/Headers/container.hpp", "symbols": ["chunk_array::inner_resize", "chunk_array::resize", "chunk_array::operator []", "chunk_bulk_array::resize"]}]}
{"id": "C07", "title": "Live elements never share a storage slot", "statement": "After any history of element creation and destruction, two different live elements of the same type occupy different storage slots, every live element maps to a slot that maps back to it, and local numbers of live elements are never reissued while they are alive.", "quantifier": "every history of creations and destructions, inside and outside of a modification phase", "why_tests_cant": "An aliasing bug appears only after particular interleavings of deletions and creations; all histories must be covered.", "anchors": [{"file": "Source/Mesh/mesh.cpp", "symbols": ["Mesh::TieElement", "Mesh::UntieElement"]}]}
{"id": "C08", "title": "Renumbering elements loses no data", "statement": "ReorderEmpty keeps, for every live element of the types in the mask, exactly the data it carried, and after it local storage slots are packed without holes.", "quantifier": "every set of holes produced by any history, every data content", "why_tests_cant": "Depends on the pattern of holes; there are exponentially many.", "anchors": [{"file": "Source/Mesh/mesh.cpp", "symbols": ["Mesh::ReorderEmpty", "Mesh::MoveStorage"]}]}
{"id": "C09", "title": "Two data tags never share storage on one element type", "statement": "After any history of CreateTag and DeleteTag calls, two different tags that are defined and dense on the same element type use different data columns, and CreateTag for an existing name returns the existing tag.", "quantifier": "every history of CreateTag/DeleteTag over all names and type masks", "why_tests_cant": "Column reuse depends on the history of deletions.", "anchors": [{"file": "Source/Data/tag.cpp", "symbols": ["TagManager::CreateTag", "TagManager::DeleteTag", "TagManager::GetTag", "TagManager::HaveTag"]}]}
{"id": "C10", "title": "A tag re-created as dense on a type where it was sparse becomes dense", "statement": "If a tag is deleted from an element type and later created again for that type with a different sparsity, the tag reports the sparsity of the latest creation.", "quantifier": "every tag, every element type, every partial delete / re-create history", "why_tests_cant": "Requires a specific partial-delete history that a unit test would have to guess.", "anchors": [{"file": "Source/Data/tag.cpp", "symbols": ["TagManager::CreateTag", "TagManager::DeleteTag"]}, {"file": "Source/Headers/inmost_data.h", "symbols": ["Tag::SetSparse", "Tag::isSparse"]}]}
{"id": "C11", "title": "Upward and downward connectivity always mirror each other", "statement": "After any history of element creation, deletion, Connect and Disconnect, element A lists B among its lower neighbours exactly as many times as B lists A among its upper neighbours.", "quantifier": "every mesh and every history of topology-changing operations", "why_tests_cant": "An invariant over unbounded graphs and histories.", "anchors": [{"file": "Source/Mesh/mesh.cpp", "symbols": ["Mesh::CreateEdge", "Mesh::CreateFace", "Mesh::CreateCell"]}, {"file": "Source/Mesh/modify.cpp", "symbols": ["Element::Disconnect", "Element::Connect"]}, {"file": "Source/Mesh/element.cpp", "symbols": ["Element::CheckElementConnectivity"]}]}
{"id": "C12", "title": "Adjacency queries return exactly the incident elements, once each", "statement": "getAdjElements(type) returns, without repetition, exactly the elements of that type reachable from the element through the incidence relation, and nbAdjElements(type) equals the number returned.", "quantifier": "every mesh incidence structure, every element, every requested type", "why_tests_cant": "Quantifies over all incidence graphs.", "anchors": [{"file": "Source/Mesh/element.cpp", "symbols": ["Element::getAdjElements", "Element::nbAdjElements"]}]}
{"id": "C13", "title": "Adjacency queries ignore hidden elements during modification", "statement": "While a modification is in progress getAdjElements and nbAdjElements return exactly the incident elements reachable through elements that are not hidden, once each.", "quantifier": "every mesh, every set of hidden elements", "why_tests_cant": "Requires all subsets of hidden elements.", "anchors": [{"file": "Source/Mesh/element.cpp", "symbols": ["Element::getAdjElements", "Element::nbAdjElements"]}, {"file": "Source/Mesh/modify.cpp", "symbols": ["Mesh::getNext", "Mesh::Count"]}]}
{"id": "C14", "title": "An existing element is found by its boundary", "statement": "FindSharedAdjacency(elements) returns an element if and only if there is an element one level up that is adjacent to all the given elements; creating an edge, face or cell over the same boundary twice returns the same element the second time when duplicates are checked.", "quantifier": "every mesh and every list of boundary elements", "why_tests_cant": "Needs all incidence graphs.", "anchors": [{"file": "Source/Mesh/mesh.cpp", "symbols": ["Mesh::FindSharedAdjacency", "Mesh::CreateEdge"]}]}
{"id": "C15", "title": "Element arrays implement set algebra", "statement": "ElementArray::Unite, Subtract and Intersect, and ElementSet::Union, Difference and Intersection, give arrays whose contents are the union, difference and intersection of the operands, without repetitions, preserving the order of first appearance.", "quantifier": "all pairs of arrays", "why_tests_cant": "Quantifies over all finite sequences.", "anchors": [{"file": "Source/Mesh/earray.cpp", "symbols": ["ElementArray::Unite", "ElementArray::Subtract", "ElementArray::Intersect"]}]}
{"id": "C16", "title": "Unsorted element sets implement finite sets", "statement": "For an unsorted element set, after any history of AddElement, RemoveElement, RemoveElements, Subtract, Intersect and Clear, the elements enumerated are exactly those of the mathematical set under the same operations, each once, and Size() is their number.", "quantifier": "all histories of operations", "why_tests_cant": "Holes left by removals interact with later insertions; depends on history.", "anchors": [{"file": "Source/Mesh/eset.cpp", "symbols": ["ElementSet::AddElement", "ElementSet::RemoveElement", "ElementSet::RemoveElements", "ElementSet::Subtract", "ElementSet::Intersect", "ElementSet::Size", "ElementSet::Clear"]}]}
{"id": "C17", "title": "Adding many elements to a set adds each of them once", "statement": "AddElements(list) on any element set leaves the set containing exactly the old elements and the listed elements, each once.", "quantifier": "all sets (any comparator, with or without holes) and all lists, including lists with repetitions", "why_tests_cant": "Depends on repetition patterns and on holes left by earlier removals.", "anchors": [{"file": "Source/Mesh/eset.cpp", "symbols": ["ElementSet::AddElements"]}]}
{"id": "C18", "title": "Compacting a set keeps its elements", "statement": "ElementSet::ReorderEmpty leaves the set of elements unchanged.", "quantifier": "all sets, all patterns of holes", "why_tests_cant": "Depends on the pattern of holes.", "anchors": [{"file": "Source/Mesh/eset.cpp", "symbols": ["ElementSet::ReorderEmpty"]}]}
{"id": "C19", "title": "Set hierarchy stays a forest", "statement": "After any history of AddChild, AddSibling, RemChild, RemSibling, the parent/child/sibling links form a forest: each set appears at most once in the child list of exactly its parent and removing a set from its parent keeps all other children.", "quantifier": "all histories of hierarchy operations that satisfy the documented preconditions", "why_tests_cant": "An invariant over linked structures and histories.", "anchors": [{"file": "Source/Mesh/eset.cpp", "symbols": ["ElementSet::AddChild", "ElementSet::AddSibling", "ElementSet::RemChild", "ElementSet::RemSibling"]}]}
{"id": "C20", "title": "Handle sorting is a sorted permutation for every length", "statement": "SortHandles reorders an array of handles into ascending order keeping the multiset of handles, for every length (both the comparison-sort and the radix-sort branch).", "quantifier": "all arrays of element handles of every length", "why_tests_cant": "The radix branch is taken only beyond a length threshold, with 2^32 possible keys.", "anchors": [{"file": "Source/Mesh/comparator.cpp", "symbols": ["Mesh::SortHandles"]}]}
{"id": "C21", "title": "Global-ID sorting agrees with the order of global IDs for every length", "statement": "SortByGlobalID orders elements by ascending global ID irrespective of the number of elements.", "quantifier": "all arrays of handles with all integer global IDs", "why_tests_cant": "The branch used depends on length; negative ids distinguish them.", "anchors": [{"file": "Source/Mesh/comparator.cpp", "symbols": ["Mesh::SortByGlobalID"]}]}
{"id": "C22", "title": "Iteration visits every live element exactly once", "statement": "Iterating from Begin(mask) to End() visits exactly the live elements of the types in the mask, each once, in order of type and local number; hidden elements are skipped; NumberOf(mask) equals the number visited.", "quantifier": "every population of live/deleted/hidden elements, every type mask", "why_tests_cant": "Quantifies over all patterns of holes.", "anchors": [{"file": "Source/Mesh/iterator.cpp", "symbols": ["Mesh::base_iterator::operator ++", "Mesh::NextLocalIDIter", "Mesh::GetNextType", "Mesh::FirstLocalIDIter"]}]}
{"id": "C23", "title": "Reverse iteration visits every live element exactly once", "statement": "Iterating backwards visits exactly the same live elements in the opposite order and never yields a deleted element.", "quantifier": "every population of live/deleted/hidden elements, every type mask", "why_tests_cant": "Quantifies over all patterns of holes.", "anchors": [{"file": "Source/Mesh/iterator.cpp", "symbols": ["Mesh::base_iterator::operator --", "Mesh::PrevLocalIDIter", "Mesh::PrevHandle"]}]}
{"id": "C24", "title": "Sparse rows behave as finitely supported vectors", "statement": "Row access by column creates at most one entry per column, reading an absent column gives zero, writing one column changes no other column, and RowVec computes the dot product of the row with the vector.", "quantifier": "all rows, columns and values", "why_tests_cant": "Quantifies over all rows and histories of access.", "anchors": [{"file": "Source/Headers/inmost_sparse.h", "symbols": ["Row::operator []", "Row::get_safe", "Row::Push"]}, {"file": "Source/Solver/sparse.cpp", "symbols": ["Row::RowVec"]}]}
{"id": "C25", "title": "Merging sorted sparse rows computes the linear combination", "statement": "MergeSortedRows(alpha,left,beta,right) on rows strictly sorted by column yields a row strictly sorted by column with value alpha*left+beta*right in every column and one entry per column.", "quantifier": "all pairs of sorted rows and all coefficients", "why_tests_cant": "Quantifies over all interleavings of columns.", "anchors": [{"file": "Source/Solver/sparse.cpp", "symbols": ["Row::MergeSortedRows"]}]}
{"id": "C26", "title": "The row accumulator computes linear combinations", "statement": "After clearing, any sequence of PushRow (only into an empty accumulator, of a row with one entry per column), AddRow (in sorted mode of sorted rows), Multiply and element increments followed by RetrieveRow yields a row whose value in every column is the accumulated linear combination, whether or not the column lies in the local interval; Clear brings the accumulator back to the empty state.", "quantifier": "all local intervals, all rows with columns inside and outside the interval, all coefficients, all sequences of operations", "why_tests_cant": "A linked list threaded through an array with a history-dependent shape.", "anchors": [{"file": "Source/Solver/sparse.cpp", "symbols": ["RowMerger::PushRow", "RowMerger::AddRow", "RowMerger::RetrieveRow", "RowMerger::Clear", "RowMerger::Multiply", "RowMerger::operator []"]}]}
{"id": "C27", "title": "Matrix-vector products are exact linear maps", "statement": "MatVec(alpha,x,beta,y) gives y := beta*y + alpha*A*x in every row and MatVecTranspose gives y := beta*y + alpha*A^T*x in every column, so that <A x, y> = <x, A^T y>.", "quantifier": "all sparse matrices and vectors with columns within the vector interval", "why_tests_cant": "Quantifies over all sparsity patterns.", "anchors": [{"file": "Source/Solver/sparse.cpp", "symbols": ["Matrix::MatVec", "Matrix::MatVecTranspose"]}]}
{"id": "C28", "title": "Default row partitions cover the matrix exactly once", "statement": "When a matrix or vector file is loaded without explicit intervals on any number of processes, the row intervals of the processes are disjoint and cover all rows.", "quantifier": "all matrix sizes and process counts", "why_tests_cant": "Two unbounded parameters.", "anchors": [{"file": "Source/Solver/sparse.cpp", "symbols": ["Matrix::Load", "Vector::Load"]}]}
{"id": "C29", "title": "Automatic differentiation gives the exact gradient", "statement": "For any expression built from the library operations (+,-,*,/, constants, reciprocal, abs, exp, log, sqrt, sin, cos, pow, atan2, soft abs/sign/max/min, conditions) at a point where the expression is differentiable, the derivative entries stored for each unknown equal the partial derivatives of the value function, and the value equals the function value.", "quantifier": "all expression trees, all points in the domain, all unknowns", "why_tests_cant": "Unbounded expression trees and real inputs.", "anchors": [{"file": "Source/Headers/inmost_expression.h", "symbols": ["basic_expression::GetJacobian", "multiplication_expression", "division_expression", "pow_expression", "sqrt_expression", "soft_max_expression"]}]}
{"id": "C30", "title": "Compound assignment keeps value and derivatives consistent", "statement": "After v += e, v -= e, v *= e, v /= e the variable holds the value and gradient of the corresponding mathematical operation, with or without an active automatizator.", "quantifier": "all variables, all expressions, including expressions that refer to v itself", "why_tests_cant": "Quantifies over all expressions and aliasing.", "anchors": [{"file": "Source/Headers/inmost_expression.h", "symbols": ["multivar_expression::operator +=", "multivar_expression::operator *=", "multivar_expression::operator /="]}, {"file": "Source/Autodiff/autodiff.cpp", "symbols": ["AddBasicExpression", "FromBasicExpression"]}]}
{"id": "C31", "title": "Second derivatives are exact", "statement": "For expressions evaluated as hessian variables, the stored second-order entries represent the Hessian matrix of the value function.", "quantifier": "all expression trees supported by GetHessian, all points in the domain", "why_tests_cant": "Unbounded expression trees and real inputs.", "anchors": [{"file": "Source/Headers/inmost_expression.h", "symbols": ["multiplication_expression::GetHessian", "exp_expression::GetHessian", "log_expression::GetHessian", "reciprocal_expression::GetHessian", "pow_const_expression::GetHessian"]}, {"file": "Source/Solver/sparse.cpp", "symbols": ["HessianRow::MergeJacobianHessian"]}]}
{"id": "C32", "title": "Table interpolation is the piecewise linear interpolant", "statement": "For a table with strictly increasing arguments, GetValue at an argument inside the table range equals the linear interpolant of the enclosing interval, at table nodes equals the table value, and GetDerivative is its slope; no access is outside the table.", "quantifier": "all tables with at least two nodes, all arguments", "why_tests_cant": "Real arguments and unbounded tables.", "anchors": [{"file": "Source/Headers/inmost_expression.h", "symbols": ["keyval_table::binary_search", "keyval_table::GetValue", "keyval_table::GetDerivative", "keyval_table::GetBoth"]}]}
{"id": "C33", "title": "Unknowns are numbered uniquely and contiguously", "statement": "After EnumerateEntries every unknown of every owned element of every active entry has its own index, the indices used by a process are exactly its interval [first,last), and the intervals of all processes partition the global range.", "quantifier": "all collections of registered entries, meshes, activity flags and process counts", "why_tests_cant": "Quantifies over all registrations and distributions.", "anchors": [{"file": "Source/Autodiff/autodiff.cpp", "symbols": ["Automatizator::EnumerateEntries", "Automatizator::RegisterEntry", "Automatizator::UnregisterEntry"]}]}
{"id": "C34", "title": "Registration slots are never shared", "statement": "After any history of RegisterEntry/UnregisterEntry, two registered entries have different registration indices and unregistering one leaves the others registered.", "quantifier": "all histories", "why_tests_cant": "History dependent reuse of slots.", "anchors": [{"file": "Source/Autodiff/autodiff.cpp", "symbols": ["Automatizator::RegisterEntry", "Automatizator::UnregisterEntry", "Automatizator::ListRegisteredEntries"]}]}
{"id": "C35", "title": "Variables stored to flat arrays are read back unchanged", "statement": "Retrieve applied to what Record wrote gives back the same value and the same derivative entries, using the same number of array slots as RecordSize reported.", "quantifier": "all variables with any number of entries, any surrounding array contents", "why_tests_cant": "Unbounded number of entries.", "anchors": [{"file": "Source/Headers/inmost_expression.h", "symbols": ["multivar_expression::Record", "multivar_expression::Retrieve", "multivar_expression::RecordSize", "multivar_expression::RetrieveSize"]}]}
{"id": "C36", "title": "Dense Solve returns a solution of the normal equations", "statement": "In exact arithmetic, when Solve(B) reports success without touching a zero pivot, the returned X satisfies A^T A X = A^T B; if A is square and invertible, A X = B.", "quantifier": "all matrices of all sizes and all right-hand sides", "why_tests_cant": "All sizes, all entries, all pivot orders.", "anchors": [{"file": "Source/Headers/inmost_dense.h", "symbols": ["AbstractMatrixReadOnly::Solve", "AbstractMatrixReadOnly::Invert"]}]}
{"id": "C37", "title": "Cholesky solve returns a solution", "statement": "In exact arithmetic, when CholeskySolve(B) reports success on a symmetric matrix, the returned X satisfies A X = B.", "quantifier": "all symmetric matrices and right-hand sides", "why_tests_cant": "All sizes and entries.", "anchors": [{"file": "Source/Headers/inmost_dense.h", "symbols": ["AbstractMatrixReadOnly::CholeskySolve", "AbstractMatrixReadOnly::CholeskyInvert"]}]}
{"id": "C38", "title": "Vector alignment transform maps one vector to the other", "statement": "A.Transform(B) returns a 3x3 matrix Q with Q A = B and Q^T Q a multiple of the identity, for nonzero vectors that are not opposite.", "quantifier": "all pairs of 3-vectors not opposite to each other", "why_tests_cant": "Real vectors.", "anchors": [{"file": "Source/Headers/inmost_dense.h", "symbols": ["AbstractMatrixReadOnly::Transform", "AbstractMatrixReadOnly::CrossProduct"]}]}
{"id": "C39", "title": "Base64 encoding is lossless", "statement": "Decoding the base64 encoding of any byte sequence returns the same byte sequence, and the encoding uses only the base64 alphabet with padding to a multiple of four characters.", "quantifier": "all byte sequences of all lengths", "why_tests_cant": "All lengths modulo three and all byte values.", "anchors": [{"file": "Source/Misc/base64.cpp", "symbols": ["base64_encode", "base64_decode"]}]}
{"id": "C40", "title": "String splitting returns exactly the maximal delimiter-free pieces", "statement": "split_string returns, in order, the maximal non-empty substrings free of delimiter characters.", "quantifier": "all strings and delimiter sets", "why_tests_cant": "All strings.", "anchors": [{"file": "Source/Misc/utils.cpp", "symbols": ["split_string"]}]}
{"id": "C41", "title": "Binary integers are portable between machines", "statement": "An unsigned integer written by write_iValue on one machine and read by read_iValue on another gives the same value whenever it fits the reader's width, for every combination of byte orders and widths.", "quantifier": "all values, widths and byte orders", "why_tests_cant": "Combinations of byte order and width are not all available in one test environment.", "anchors": [{"file": "Source/IO/io.hpp", "symbols": ["io_converter::write_iValue", "io_converter::read_iValue", "io_converter::convert_endianess", "io_converter::flip_bytes"]}]}
{"id": "C42", "title": "The owner of a matrix row is found correctly", "statement": "GetProcessor(row) returns the process whose row interval contains the row.", "quantifier": "all partitions of the rows into consecutive intervals, including empty ones, all rows", "why_tests_cant": "All partitions.", "anchors": [{"file": "Source/Solver/OrderInfo.cpp", "symbols": ["Solver::OrderInfo::GetProcessor"]}]}
{"id": "C43", "title": "Vector synchronisation delivers the owner's value", "statement": "After PrepareMatrix on all processes and Update(x) on all processes, every off-process position of x used by the local rows holds the value stored by the process that owns it, and positions owned locally are unchanged, for every order in which messages arrive.", "quantifier": "all distributed matrices, numbers of processes, message delivery orders", "why_tests_cant": "Arbitrary process counts and message schedules.", "anchors": [{"file": "Source/Solver/OrderInfo.cpp", "symbols": ["Solver::OrderInfo::PrepareMatrix", "Solver::OrderInfo::Update"]}]}
{"id": "C44", "title": "Vector accumulation adds every contribution to the owner", "statement": "After Accumulate(x) on all processes every owned position holds its old value plus the sum of the values of all processes that hold a copy of it, for every order in which messages arrive.", "quantifier": "all distributed matrices, numbers of processes, message delivery orders", "why_tests_cant": "Arbitrary process counts and message schedules.", "anchors": [{"file": "Source/Solver/OrderInfo.cpp", "symbols": ["Solver::OrderInfo::Accumulate"]}]}
{"id": "C45", "title": "Restoring a prepared matrix gives back the original", "statement": "RestoreMatrix after PrepareMatrix with any overlap gives back the original row interval and the original column indices and values.", "quantifier": "all distributed matrices and overlap depths", "why_tests_cant": "All sparsity patterns.", "anchors": [{"file": "Source/Solver/OrderInfo.cpp", "symbols": ["Solver::OrderInfo::PrepareMatrix", "Solver::OrderInfo::RestoreMatrix"]}]}
{"id": "C46", "title": "The iterative solver's reported residual is the true residual", "statement": "In exact arithmetic the residual vector the BiCGStab iteration tracks equals b - A x for the current x at every iteration, so reported success implies that the preconditioned system is solved to the requested tolerance.", "quantifier": "all matrices, right-hand sides, initial guesses, iteration counts", "why_tests_cant": "All iteration counts.", "anchors": [{"file": "Source/Solver/solver_inner/solver_bcgsl.hpp", "symbols": ["BCGS_solver::Solve", "BCGSL_solver::Solve"]}]}
{"id": "C47", "title": "Deleting an element removes it and everything built on it", "statement": "Outside modification, Delete(e) removes e and every element that has e in its boundary (directly or through other elements), and nothing else. Between BeginModification and EndModification it only hides them; EndModification removes exactly the hidden elements. Elements that remain keep exactly their remaining neighbours.", "quantifier": "every mesh, every element, every set of hidden elements", "why_tests_cant": "Cascades over arbitrary incidence graphs and histories.", "anchors": [{"file": "Source/Mesh/modify.cpp", "symbols": ["Mesh::Delete", "Mesh::Destroy", "Mesh::EndModification", "Element::Disconnect", "Mesh::Hide"]}]}
{"id": "C48", "title": "SortSet orders a set and keeps its elements", "statement": "After SortSet(comparator) the set enumerates the same elements as before, in the order of the comparator, and reports that comparator, whatever the history of the set (holes left by removals, an earlier order, Clear).", "quantifier": "all element sets and histories, the comparators HANDLE, GLOBALID and UNSORTED", "why_tests_cant": "The branch of the sort depends on the number of entries, and holes and the sorted prefix depend on the history.", "anchors": [{"file": "Source/Mesh/eset.cpp", "symbols": ["ElementSet::SortSet"]}]}
{"id": "C49", "title": "Binary search in a sorted set agrees with linear search", "statement": "On a set sorted by handles FindHandle answers whether the element is enumerated, AddElement adds an element exactly if it is missing and keeps the order, RemoveElement removes exactly the given element.", "quantifier": "all sorted sets and histories of operations", "why_tests_cant": "Depends on where holes left by removals are relative to the probes of the binary search.", "anchors": [{"file": "Source/Mesh/eset.cpp", "symbols": ["ElementSet::FindHandle", "ElementSet::AddElement", "ElementSet::RemoveElement", "ElementSet::PutElement"]}]}
{"id": "C50", "title": "Packed symmetric matrices address every entry consistently", "statement": "In a SymmetricMatrix of any order the entries (i,j) and (j,i) are the same number, other entries never share storage, every entry lies inside the allocated array and no part of the array is unused.", "quantifier": "all matrix orders and index pairs", "why_tests_cant": "The address is a quadratic expression in unsigned arithmetic that must be injective for all orders.", "anchors": [{"file": "Source/Headers/inmost_dense.h", "symbols": ["SymmetricMatrix::operator()"]}]}
{"id": "C51", "title": "Cross product of 3-vectors is orthogonal, right-handed and has the right length", "statement": "A.CrossProduct(B) is orthogonal to A and B, has squared length |A|^2|B|^2-(A.B)^2 and A, B, AxB are right-handed; DotProduct and FrobeniusNorm are the Euclidean dot product and length.", "quantifier": "all pairs of 3-vectors", "why_tests_cant": "Algebraic identity over all real vectors.", "anchors": [{"file": "Source/Headers/inmost_dense.h", "symbols": ["AbstractMatrixReadOnly::CrossProduct", "AbstractMatrixReadOnly::DotProduct", "AbstractMatrixReadOnly::FrobeniusNorm"]}]}
{"id": "C52", "title": "Overlap stores exactly the requested neighbourhood", "statement": "After PrepareMatrix(m, overlap) a process stores exactly the rows that can be reached from its own rows in at most overlap steps from row to column, and has vector positions exactly for the indices within overlap+1 steps.", "quantifier": "all distributed matrices, numbers of processes, overlap depths", "why_tests_cant": "All sparsity patterns and depths.", "anchors": [{"file": "Source/Solver/OrderInfo.cpp", "symbols": ["Solver::OrderInfo::PrepareMatrix"]}]}
{"id": "C53", "title": "Overlapping row intervals are split into a partition", "statement": "When the row intervals of the processes overlap, PrepareMatrix moves the bounds so that the intervals become consecutive and disjoint, each being a part of the original interval, and together cover the same rows.", "quantifier": "all lists of overlapping intervals without gaps", "why_tests_cant": "All interval configurations, including three mutually overlapping or nested ones.", "anchors": [{"file": "Source/Solver/OrderInfo.cpp", "symbols": ["Solver::OrderInfo::PrepareMatrix"]}]}
{"id": "C54", "title": "The ILU2 preconditioner inverts its factors and, without dropping, the matrix", "statement": "Applying the ILU2 preconditioner is a linear operation that solves the two triangular systems exactly for any thresholds; with zero thresholds, if no pivot had to be replaced, it returns the exact solution of A x = b.", "quantifier": "all matrices, right-hand sides and thresholds", "why_tests_cant": "All sparsity patterns and fill-in orders.", "anchors": [{"file": "Source/Solver/solver_inner/solver_ilu2/solver_ilu2.hpp", "symbols": ["ILU2_preconditioner::Initialize", "ILU2_preconditioner::Solve"]}]}
{"id": "C55", "title": "Setting up a preconditioner leaves the matrix unchanged", "statement": "Setting up the ILU2 preconditioner succeeds for every matrix and leaves the matrix passed to it with the same entries (in exact arithmetic), whatever number of scaling iterations is selected.", "quantifier": "all matrices and parameter values", "why_tests_cant": "All matrices including zero rows, all parameter values.", "anchors": [{"file": "Source/Solver/solver_inner/solver_ilu2/solver_ilu2.hpp", "symbols": ["ILU2_preconditioner::Initialize"]}]}
{"id": "C56", "title": "The edges of a face can be put into the order of its boundary", "statement": "FixEdgeOrder returns true exactly if the edges of the face, in some order, are a closed polygon (with distinct corners), and then stores them in this order; it never changes anything but the order of the edges. CheckEdgeOrder returns true exactly if they are stored in such an order.", "quantifier": "all faces, all stored orders of their edges, also during modification with hidden edges", "why_tests_cant": "All permutations of edges and orientations of edges, and all positions of hidden edges.", "anchors": [{"file": "Source/Mesh/face.cpp", "symbols": ["Face::FixEdgeOrder", "Face::CheckEdgeOrder"]}, {"file": "Source/Mesh/cell.cpp", "symbols": ["Cell::FixEdgeOrder"]}]}
{"id": "C57", "title": "The nodes of a face are the corners of its boundary in order", "statement": "For a face whose edges are stored in the order of a closed polygon, getNodes returns the corners such that edge i joins nodes i and i+1, and getNodes(mask) returns those of them selected by the mask in the same order.", "quantifier": "all faces with a closed simple boundary, all orientations of edges, all masks, also during modification with hidden edges", "why_tests_cant": "All numbers of edges, orientations of edges and positions of hidden edges.", "anchors": [{"file": "Source/Mesh/face.cpp", "symbols": ["Face::getNodes"]}]}
{"id": "C58", "title": "Splitting an edge keeps its faces closed polygons", "statement": "SplitEdge(e, nodes) replaces the edge by a chain of edges through the given nodes. In every face of the edge whose edges are stored in the order of a closed polygon the chain takes the place of the edge, in the direction in which the polygon passes it, so that the face is again a closed polygon with the given nodes as additional corners; other faces and edges do not change; the new edges belong to all faces of the edge and the nodes to all its cells.", "quantifier": "all meshes reached by any history, all edges, all numbers of nodes, all faces of the edge and both directions, with and without hiding", "why_tests_cant": "All numbers of edges of the face, positions of the edge in it, orientations, numbers of nodes and histories.", "anchors": [{"file": "Source/Mesh/modify.cpp", "symbols": ["Edge::SplitEdge"]}]}
{"id": "C59", "title": "Uniting edges keeps their faces closed polygons", "statement": "UniteEdges(edges) replaces edges that form a connected piece of the boundary of a face by one edge between the ends of the piece; the face is again a closed polygon, without the inner nodes of the piece; faces with none of the edges do not change. TestUniteEdges tells whether UniteEdges can be called.", "quantifier": "all meshes reached by any history, all pieces, also those that contain the beginning and the end of the stored array, all orders in which the edges are given, with and without hiding", "why_tests_cant": "All positions and orders of the edges, numbers of edges of the face and histories.", "anchors": [{"file": "Source/Mesh/modify.cpp", "symbols": ["Edge::UniteEdges", "Edge::TestUniteEdges"]}]}
{"id": "C60", "title": "ExchangeData makes ghosts equal to their owners", "statement": "After ExchangeData(tags,mask) the value of each tag on every ghost element of the mask is the value on the owner's copy, nothing else has changed, no processor fails, and all processors return.", "quantifier": "all numbers of processors, distributed meshes, sets of tags (dense, sparse, fixed and variable length), masks and selections, and all orders in which processors start and messages arrive", "why_tests_cant": "The schedules of messages and the distributions of a mesh are unbounded; a test sees one schedule on a few processors.", "anchors": [{"file": "Source/Mesh/parallel.cpp", "symbols": ["Mesh::ExchangeData", "Mesh::PackTagData", "Mesh::UnpackTagData", "Mesh::ExchangeDataInnerBegin", "Mesh::ExchangeDataInnerEnd", "DefaultUnpack"]}]}
{"id": "C61", "title": "ReduceData combines every copy once", "statement": "ReduceData(tags,mask,op) applies op on each shared element of the mask once for every ghost of it, with the value of the ghost; if the order of two values does not matter for op, the result does not depend on timing; ghosts and other elements do not change.", "quantifier": "all numbers of processors, distributed meshes, tags, masks, operations and orders of events", "why_tests_cant": "The result must not depend on the order in which messages arrive, which a test cannot enumerate.", "anchors": [{"file": "Source/Mesh/parallel.cpp", "symbols": ["Mesh::ReduceData", "Mesh::PackTagData", "Mesh::UnpackTagData"]}]}
{"id": "C62", "title": "SynchronizeMarker makes markers of copies agree", "statement": "After SynchronizeMarker(marker,mask,op) all copies of an element have the same marker: that of the owner (SYNC_BIT_SET), the disjunction (OR), exclusive or (XOR), conjunction (AND) of the markers of all copies; elements with one copy keep theirs.", "quantifier": "all numbers of processors, distributed meshes, markers, masks, operations and orders of events", "why_tests_cant": "Two collective exchanges in any schedule, any pattern of markers over any number of copies.", "anchors": [{"file": "Source/Mesh/parallel.cpp", "symbols": ["Mesh::SynchronizeMarker", "UnpackSyncMarkerOR", "UnpackSyncMarkerXOR", "UnpackSyncMarkerAND"]}]}
{"id": "C63", "title": "Enumerate gives consecutive numbers without gaps", "statement": "Enumerate(mask or set or array,tag,start,define_sparse) gives each element of it one number; over all processors the numbers are exactly start, ..., ret-1 where ret is the returned value, the same on all processors; copies of an element have the same number; on each processor elements with one copy come before shared ones.", "quantifier": "all numbers of processors, distributed meshes, lists of elements, start values, tags, and orders of events", "why_tests_cant": "Numbers of processors, distributions and lists are unbounded.", "anchors": [{"file": "Source/Mesh/parallel.cpp", "symbols": ["Mesh::Enumerate", "Mesh::EnumerateSet", "Mesh::TotalNumberOf", "Mesh::ExclusiveSum"]}]}
{"id": "C64", "title": "AssignGlobalID identifies elements", "statement": "After AssignGlobalID(mask) the global numbers of the elements of each type of the mask are exactly 0, ..., N-1 with N = TotalNumberOf(type); copies of an element have the same number and different elements of a type have different ones, so sorting by global numbers makes the lists of processors match.", "quantifier": "all numbers of processors, distributed meshes, masks and orders of events", "why_tests_cant": "Numbers of processors and distributions are unbounded.", "anchors": [{"file": "Source/Mesh/parallel.cpp", "symbols": ["Mesh::AssignGlobalID", "Mesh::TotalNumberOf"]}]}
{"id": "C65", "title": "Buffers are sent completely and unpacked once", "statement": "The chunks in which a buffer is sent put together are the buffer; each buffer is reported once, after all of its chunks have arrived.", "quantifier": "all buffers of any size, all numbers of buffers, and all orders and portions in which MPI reports arrivals", "why_tests_cant": "Buffers above two gigabytes and all orders of arrival cannot be tested.", "anchors": [{"file": "Source/Mesh/parallel.cpp", "symbols": ["Mesh::ExchangeBuffersInner", "Mesh::FinishRequests"]}, {"file": "Source/Headers/inmost_mesh.h", "symbols": ["exch_recv_reqs_t"]}]}
{"id": "C66", "title": "SearchKDTree finds the cell of a point", "statement": "SearchCell(p) of a tree built for a set of elements returns: the cell that it returns belongs to the set and contains p according to Cell::Inside; if some cell of the set contains p then a cell is returned, not an invalid one.", "quantifier": "all meshes, sets of elements of any size, points, and orders in which equal keys may be sorted", "why_tests_cant": "Sets, coordinates and orders of equal keys are unbounded; the choice between the two sorts and the shape of the tree depend on the size.", "anchors": [{"file": "Source/Mesh/kdtree.cpp", "symbols": ["SearchKDTree::SearchCell", "SearchKDTree::kdtree_build", "SearchKDTree::radix_sort", "SearchKDTree::SubSearchCell"]}, {"file": "Source/Headers/inmost_mesh.h", "symbols": ["SearchKDTree"]}]}
{"id": "C67", "title": "Cell::Inside tells whether a point is in the cell", "statement": "For a convex cell Inside(p) is true for the points of the cell and false for the points that are outside by more than the tolerance; flat cells contain the points of their triangles.", "quantifier": "all cells with a closed surface, of any number of faces and nodes, all points", "why_tests_cant": "Polyhedra and points form a continuum of unbounded dimension.", "anchors": [{"file": "Source/Mesh/geometry.cpp", "symbols": ["Cell::Inside"]}]}
{"id": "C68", "title": "IntersectSegment returns the elements on a segment", "statement": "IntersectSegment(cells,p1,p2) and IntersectSegment(faces,p1,p2) append to the array, each once, the cells and faces of the elements in the tree whose surface has a point in common with the segment, and no others up to the tolerance; no marker is left.", "quantifier": "all meshes, sets of elements of any size, segments, and contents of the array", "why_tests_cant": "Sets, shapes and segments are unbounded; the boxes of the tree must never hide an element.", "anchors": [{"file": "Source/Mesh/kdtree.cpp", "symbols": ["SearchKDTree::IntersectSegment", "SearchKDTree::segment_tri", "SearchKDTree::segment_bbox", "SearchKDTree::sub_intersect_segment"]}]}
{"id": "C69", "title": "IntersectSphere returns the elements near a point", "statement": "IntersectSphere(cells,p,r) and IntersectSphere(faces,p,r) append to the array, each once, the cells and faces of the elements in the tree whose surface has a point within the distance r of p, and no others; no marker is left.", "quantifier": "all meshes, sets of elements of any size, centres, radii, and contents of the array", "why_tests_cant": "Sets, shapes and spheres are unbounded; the closest point of a triangle has seven cases, the boxes of the tree must never hide an element.", "anchors": [{"file": "Source/Mesh/kdtree.cpp", "symbols": ["SearchKDTree::IntersectSphere", "SearchKDTree::triangle_distance", "SearchKDTree::segment_distance", "SearchKDTree::bbox_sphere", "SearchKDTree::sub_intersect_sphere"]}]}
{"id": "C70", "title": "FacesOrientation marks the faces run through the opposite way", "statement": "FacesOrientation(faces,rev) sets rev for exactly those faces of a closed surface that have to be reversed for all normals to point to the same side as that of the first face; for the faces of a cell that passes CheckConvexity rev is set for exactly the faces whose normal points inside.", "quantifier": "all meshes, surfaces with any number of faces and edges, any order of faces, all coordinates", "why_tests_cant": "Surfaces of any topology and size; the search depends on the order of faces and edges.", "anchors": [{"file": "Source/Mesh/geometry.cpp", "symbols": ["Mesh::FacesOrientation", "Mesh::CheckConvexity"]}]}
{"id": "C71", "title": "Cell::Volume is the volume of the polyhedron", "statement": "For a cell with flat faces, convex or not, with face normals in any direction, Volume() is the volume of the solid bounded by the faces: the sum of the volumes of tetrahedra it may be cut into.", "quantifier": "all meshes and cells, any number of faces, any shape, any orientation of faces", "why_tests_cant": "Polyhedra form a continuum of unbounded dimension.", "anchors": [{"file": "Source/Mesh/geometry.cpp", "symbols": ["Mesh::GetGeometricData", "Cell::Volume", "Mesh::FacesOrientation", "Mesh::CheckConvexity"]}]}
{"id": "C72", "title": "Cell::Barycenter is the centre of mass", "statement": "For a cell with flat faces Barycenter() is the centre of mass of the solid bounded by the faces.", "quantifier": "all meshes and cells, any number of faces, any shape, any orientation of faces", "why_tests_cant": "Polyhedra form a continuum of unbounded dimension.", "anchors": [{"file": "Source/Mesh/geometry.cpp", "symbols": ["Mesh::GetGeometricData", "Element::Barycenter"]}]}
{"id": "C73", "title": "Face normals, areas and barycenters", "statement": "Normal() of a face is the vector area of the polygon of its nodes, whichever node the computation starts from; Area() is its length; Barycenter() of a flat face is the centre of its area, also for faces that are not convex; the outward normals of the faces of a cell sum up to zero.", "quantifier": "all meshes and faces with any number of nodes, convex or not", "why_tests_cant": "Polygons form a continuum of unbounded dimension.", "anchors": [{"file": "Source/Mesh/geometry.cpp", "symbols": ["Mesh::GetGeometricData", "Face::Normal", "Face::Area"]}]}
{"id": "C74", "title": "FixNormalOrientation makes the normal point out of the back cell", "statement": "CheckNormalOrientation() tells whether the normal of the face points out of its back cell; after FixNormalOrientation(), with or without permission to exchange the cells, the normal points from the back cell to the front cell.", "quantifier": "all meshes, faces with one or two cells, cells of any shape", "why_tests_cant": "Cells of any shape and any numbering and direction of faces.", "anchors": [{"file": "Source/Mesh/geometry.cpp", "symbols": ["Face::CheckNormalOrientation", "Face::FixNormalOrientation"]}, {"file": "Source/Mesh/face.cpp", "symbols": ["Face::SwapCells", "Face::ReorderEdges", "Face::BackCell"]}]}
{"id": "C75", "title": "A mesh saved in the inner format is read back", "statement": "A mesh written with Save(\"file.pmf\") and read with Load into an empty mesh, on a machine with another order of bytes and another width of integers, with any tags excluded on writing or reading, has the same dimension, elements, boundaries, nodes of cells, coordinates and sets and the same values of all tags that were not excluded; saving does not change the mesh.", "quantifier": "all meshes made by any history of calls, all tags and values, both byte orders, all widths of integers, all options", "why_tests_cant": "Meshes of any size, byte order and integer width of the reading machine; tests use one machine.", "anchors": [{"file": "Source/IO/mesh_pmf_file.cpp", "symbols": ["Mesh::SavePMF", "Mesh::LoadPMF"]}, {"file": "Source/IO/io.hpp", "symbols": ["io_converter"]}]}
{"id": "C76", "title": "Every part of a parallel file is read by exactly one processor", "statement": "A file written by any number of processors and read by any other number of processors is distributed so that every part is read exactly once, completely and by one processor, and each processor gets its share of consecutive parts.", "quantifier": "all numbers of writing and reading processors, sizes of parts, sizes of messages, byte orders", "why_tests_cant": "All pairs of numbers of processors and all sizes of parts.", "anchors": [{"file": "Source/IO/mesh_pmf_file.cpp", "symbols": ["Mesh::SavePMF", "Mesh::LoadPMF"]}]}
{"id": "C77", "title": "Owners and processors of elements after reading on another number of processors", "statement": "After a parallel file is read by fewer processors, the owner of an element is the processor that read the part of its old owner, its processors are the readers of the parts of its old processors, all copies of an element agree about both, and elements that are left on one processor are owned.", "quantifier": "all numbers of writing and reading processors, all owners and lists of processors", "why_tests_cant": "All distributions of elements over processors and all pairs of numbers of processors.", "anchors": [{"file": "Source/IO/mesh_pmf_file.cpp", "symbols": ["Mesh::LoadPMF"]}]}
{"id": "C78", "title": "XML trees that are written are read back", "statement": "A tree of XML tags with attributes, children and contents that is written with WriteXML is read by XMLReader::ReadXML as the same tree, and different trees are written differently.", "quantifier": "all trees of any depth and size, all names, values and contents", "why_tests_cant": "Trees of any depth and texts of any length.", "anchors": [{"file": "Source/Misc/xml.cpp", "symbols": ["WriteXML", "XMLReader::ReadXML", "XMLReader::ReadXMLSub"]}]}
{"id": "C79", "title": "XML documents are read as their trees", "statement": "A document of the XML grammar (white space, comments, instructions, raw text, data blocks, attributes with and without quotes, included files) is read without a failure as its tree, and no text stands for two trees.", "quantifier": "all documents and included files", "why_tests_cant": "All documents, with any nesting and any text between tags.", "anchors": [{"file": "Source/Misc/xml.cpp", "symbols": ["XMLReader::ReadXML", "XMLReader::OpenTag", "XMLReader::CloseTag", "XMLReader::AttributeName", "XMLReader::AttributeValue"]}]}
{"id": "C80", "title": "Expressions in files have their arithmetical value", "statement": "An expression with numbers, brackets, + - * / and a leading minus evaluates to its value by the usual rules, and a multiplier of data in a file with SetSize in it repeats the data that number of times; a malformed expression is reported.", "quantifier": "all expressions and sizes of sets", "why_tests_cant": "Expressions of any depth and length.", "anchors": [{"file": "Source/Misc/xml.cpp", "symbols": ["XMLReader::Interpreter::Evaluate", "XMLReader::Interpreter::MakePolish", "XMLReader::Interpreter::Run", "XMLReader::ConvertMultiplier"]}]}
{"id": "C81", "title": "Data of tags in xml files is read back", "statement": "The declaration of a tag in an xml file gives back its name, type, size and the types of elements it is defined and sparse on. The data of a tag that is written for all elements of a type, or for those that have it if the tag is sparse, is read back record by record, with fixed or variable size, for integers, bytes, references, reals that are printed exactly and values with derivatives; a multiplier repeats a record for the next elements, and SetSize gives it to all.", "quantifier": "all tags, records of data, layouts of white space and multipliers", "why_tests_cant": "Records of any number and length with any integer, byte and reference in them.", "anchors": [{"file": "Source/IO/mesh_xml_file.cpp", "symbols": ["Mesh::LoadXML", "Mesh::SaveXML"]}, {"file": "Source/Misc/xml.cpp", "symbols": ["XMLReader::GetContentsWord", "XMLReader::ParseReal", "XMLReader::ParseInteger", "XMLReader::ParseBulk", "XMLReader::ParseReference", "XMLReader::ParseVariable", "XMLReader::atov", "XMLReader::atoh"]}]}
{"id": "C82", "title": "Elements reached through a bridge, neighbouring cells", "statement": "BridgeAdjacencies(bridge,dest,masks) returns each once exactly the elements of the destination types that are incident to an element of the bridge types incident to the given one, without those incident to it directly, with both masks respected, and leaves no marks. BackCell and FrontCell are the first and second visible cells of a face, the neighbour of a cell over a face is the other cell, NeighbouringCells lists the other cell of every face.", "quantifier": "all meshes reached by histories of modifications, all elements, types and masks", "why_tests_cant": "All meshes and all combinations of types and masks, during and outside of modifications.", "anchors": [{"file": "Source/Mesh/element.cpp", "symbols": ["Element::BridgeAdjacencies"]}, {"file": "Source/Mesh/geometry.cpp", "symbols": ["Cell::NeighbouringCells", "Cell::Neighbour"]}, {"file": "Source/Mesh/face.cpp", "symbols": ["Face::BackCell", "Face::FrontCell", "Face::FaceOrientedOutside"]}]}
{"id": "C83", "title": "Boundary of the mesh", "statement": "A face is at the boundary iff fewer than two cells have it, another element iff a face at the boundary is incident to it; the lists, numbers and marks of boundary faces say the same. On several processors MarkBoundaryFaces marks a face on every processor that has a copy of it iff exactly one cell of the whole mesh has it, whatever the order in which messages arrive.", "quantifier": "all meshes, distributions over processors and orders of messages", "why_tests_cant": "All meshes, all distributions and all schedules of messages.", "anchors": [{"file": "Source/Mesh/geometry.cpp", "symbols": ["Element::Boundary", "Mesh::GatherBoundaryFaces", "Mesh::GatherInteriorFaces", "Mesh::CountBoundaryFaces", "Mesh::MarkBoundaryFaces", "UnpackBoundary"]}]}
{"id": "C84", "title": "ResolveShared finds the copies of every element", "statement": "When every processor has made its part of the mesh and ResolveShared has run, each node, edge, face and cell lists, in increasing order, exactly the processors that have the same element (nodes up to the tolerance, others by the elements they consist of); all copies have one global number, different elements have different ones; the owner is the least processor of the list, and owned, shared and ghost say whether there are other copies and where the owner is. The result does not depend on the order in which messages arrive, and the call always ends.", "quantifier": "all numbers of processors, all partitions of all meshes, all orders of messages", "why_tests_cant": "All partitions and all schedules of messages.", "anchors": [{"file": "Source/Mesh/parallel.cpp", "symbols": ["Mesh::ResolveShared", "determine_my_procs_low", "point_in_bbox"]}, {"file": "Source/Mesh/comparator.cpp", "symbols": ["Mesh::CentroidComparator"]}]}
{"id": "C85", "title": "EquilibrateGhost gives every copied element to one nearest processor", "statement": "After EquilibrateGhost a cell that several processors have belongs to the processor on which the fewest steps through neighbours lead from it to a cell of its own, to the least such processor if there are several, and keeps its owner if there is none; a face, edge or node belongs to the least of the new owners of the elements above it, on whatever processor these are. All copies name the same owner, the owner has a copy, owned, shared and ghost fit, elements without copies and all lists of processors are as before. The result does not depend on the order of messages and the call always ends. All this holds for the mesh that ResolveShared makes.", "quantifier": "all numbers of processors, all distributed meshes, all orders of messages", "why_tests_cant": "All partitions and all schedules of messages.", "anchors": [{"file": "Source/Mesh/parallel.cpp", "symbols": ["Mesh::EquilibrateGhost", "OperationMinDistance", "OperationMinOwner", "Mesh::ResolveShared"]}]}
{"id": "C86", "title": "The loops used for splitting faces and cells are closed and use every element no more than allowed", "statement": "The search of loops behind SplitFace and SplitCell ends on every list of inner and outer elements. Every loop is a set of different given elements in which each lower element (node of an edge, edge of a face) occurs in none or in two; an outer element is in at most one loop and an inner one in at most two. Loops of edges are polygons listed in order, with different corners; an outer edge is left over only if no closed set of the edges that are left contains it, and no closed set through the starting edge with no more edges than the chosen loop is shorter.", "quantifier": "all lists of elements, all incidences, all measures", "why_tests_cant": "All planar and spatial arrangements of edges and faces; the search branches over all paths.", "anchors": [{"file": "Source/Mesh/incident_matrix.hpp", "symbols": ["incident_matrix", "recursive_find", "find_shortest_loop", "do_show_row", "do_hide_row"]}, {"file": "Source/Mesh/modify.cpp", "symbols": ["Face::SplitFace", "Cell::SplitCell"]}]}
{"id": "C87", "title": "Splitting a face replaces it by polygons and keeps the cells closed", "statement": "SplitFace does nothing for no edges or a protected face, returns the face for edges of its boundary, and otherwise has a defined outcome: the returned faces are different polygons of the given edges and the edges of the face, they belong to the cells of the face, the face is gone; every edge of the face is in exactly one returned face and every other given edge in two or none; closed cells stay closed; upward and downward connections agree; no other element changes; cells get the nodes of the given edges inside the face.", "quantifier": "all meshes, all faces, all lists of edges, all measures of edges, all states of hidden elements", "why_tests_cant": "All meshes and all ways to lay edges into a face; the parts come from a search over all paths.", "anchors": [{"file": "Source/Mesh/modify.cpp", "symbols": ["Face::SplitFace"]}, {"file": "Source/Mesh/incident_matrix.hpp", "symbols": ["incident_matrix"]}]}
{"id": "C88", "title": "Splitting a cell replaces it by closed cells", "statement": "SplitCell does nothing for no faces or a protected cell, returns the cell for faces of its boundary, and otherwise has a defined outcome: the returned cells are different new cells with at least four different faces, given ones or faces of the cell; every edge belongs to none or two of the faces of a returned cell; a face of the cell is in at most one returned cell and every other given face in at most two; the cell is gone; upward and downward connections agree; no other element changes.", "quantifier": "all meshes, all cells, all lists of faces, all measures of faces, all states of hidden elements", "why_tests_cant": "All meshes and all ways to lay faces into a cell; the parts come from a search over all sets of faces.", "anchors": [{"file": "Source/Mesh/modify.cpp", "symbols": ["Cell::SplitCell"]}, {"file": "Source/Mesh/incident_matrix.hpp", "symbols": ["incident_matrix"]}, {"file": "Source/Mesh/mesh.cpp", "symbols": ["Mesh::CreateCell"]}]}
{"id": "C89", "title": "Uniting cells removes what lies between them", "statement": "UniteCells returns nothing and changes nothing for an empty list or if an element that would have to be removed is protected. Otherwise exactly these elements disappear: the cells, the faces two of them share, the edges left without faces, and the nodes left without edges; one new cell appears with the faces that exactly one of the cells has, each once; at every edge the numbers of faces add up, so that closed cells give an even number of faces; all other elements keep their boundaries and nodes, connections agree in both directions, protected elements never disappear, and the call has a defined outcome. TestUniteCells answers whether UniteCells would act.", "quantifier": "all meshes, all lists of different cells in which no face has more than two cells, all sets of protected elements, all states of hidden elements", "why_tests_cant": "All meshes, all clusters of cells and all sets of protected elements; what disappears depends on all elements around the cells.", "anchors": [{"file": "Source/Mesh/modify.cpp", "symbols": ["Cell::UniteCells", "Cell::TestUniteCells"]}, {"file": "Source/Mesh/mesh.cpp", "symbols": ["Mesh::CreateCell"]}]}
{"id": "C90", "title": "Uniting faces gives one closed polygon", "statement": "UniteFaces returns nothing and changes nothing for an empty list or if an element that would have to be removed is protected. Otherwise exactly these elements disappear: the faces, the edges two of them share, and the nodes left without edges; one new face appears, a closed polygon of the edges that exactly one of the faces has, each once; it belongs to the cells of the united faces, at most two, in place of these faces; if the faces are one piece connected by edges, closed cells stay closed; cells lose exactly the nodes that disappear; all other elements keep their boundaries, connections agree in both directions. The call succeeds whenever the outer edges are one simple polygon, no other face has an inner edge and the cells keep three other faces.", "quantifier": "all meshes, all lists of different visible polygons without coinciding edges, all sets of protected elements, all states of hidden elements", "why_tests_cant": "All meshes, all patches of faces and all orders of the edges around the nodes; the boundary search may go wrong for one arrangement only.", "anchors": [{"file": "Source/Mesh/modify.cpp", "symbols": ["Face::UniteFaces", "Face::TestUniteFaces"]}, {"file": "Source/Mesh/mesh.cpp", "symbols": ["Mesh::CreateFace"]}]}
{"id": "C91", "title": "Nothing refers to deleted elements after ApplyModification", "statement": "ApplyModification returns and sets every reference to an element deleted in the modification to InvalidHandle, in every tag of references on every element, set and on the mesh; other references and other data stay. Sets lose exactly the deleted elements; the tree of sets loses exactly the deleted sets: the other sets keep their other children in order, children of a deleted set become roots. The arrays of shared and ghost elements lose exactly the deleted elements. EndModification then removes exactly the deleted elements and leaves what remains unchanged. Thus in every history in which elements are deleted only in modifications, no reference, element of a set, link between sets or entry of an array of shared elements names an element that does not exist.", "quantifier": "all histories of creation, writing of references, changes of sets and of the tree of sets, modifications with any deleted elements and sets", "why_tests_cant": "Every combination of references, sets and deleted elements over all histories; a dangling reference is noticed only when its slot is reused.", "anchors": [{"file": "Source/Mesh/modify.cpp", "symbols": ["Mesh::RemoveLinksToDeletedElements", "Mesh::ApplyModification", "Mesh::EndModification", "Mesh::Destroy"]}, {"file": "Source/Mesh/eset.cpp", "symbols": ["ElementSet::RemChild", "ElementSet::RemSibling"]}, {"file": "Source/Headers/inmost_mesh.h", "symbols": ["Mesh::ReferenceArray"]}]}
{"id": "C92", "title": "Sets are found by their names", "statement": "GetSet returns the set with the given name and nothing if no set has it; no two sets share a name. CreateSet returns the set that has the name, and false, or makes one, and true; no other set changes. After a set is destroyed its name is free and the others keep theirs; EndModification frees exactly the names of the sets deleted in the modification. GetSetsByPrefix returns exactly the sets whose names begin with the prefix, each once, in alphabetic order.", "quantifier": "all histories of creation and deletion of sets, inside and outside modifications; all names and prefixes", "why_tests_cant": "The search structure depends on the whole history of names; prefix search stops at a name decided by the order of all others.", "anchors": [{"file": "Source/Mesh/mesh.cpp", "symbols": ["Mesh::CreateSet", "Mesh::CreateSetUnique", "Mesh::GetSet", "Mesh::GetSetsByPrefix", "Mesh::Clear"]}, {"file": "Source/Mesh/modify.cpp", "symbols": ["Mesh::Destroy"]}]}
{"id": "C93", "title": "ResolveSets tells every process who else has its sets", "statement": "After ResolveSets, called by all processes, each set that is not deleted has the increasing list of the ranks of all processes that have a set with the same name, and its owner is the least of them. Its status is Owned if no other process has it, else Shared on the owner and Ghost on the others. All processes agree on the list and the owner. Deleted sets keep their data.", "quantifier": "all numbers of processes, all histories of sets on each, all names without a zero byte", "why_tests_cant": "Depends on the names on all processes at once; tests run few processes with few names.", "anchors": [{"file": "Source/Mesh/parallel.cpp", "symbols": ["Mesh::ResolveSets"]}]}
{"id": "C94", "title": "Connections can be removed and restored", "statement": "After any sequence of RemoveUpperAdjacencies, RemoveLowerAdjacencies, RestoreUpperAdjacencies, RestoreLowerAdjacencies with any masks, every connection that is kept names the same elements as at the start, and one of the two directions between neighbouring types is always kept: a removal is refused exactly if it would lose the last one. Restorations complete and the types of the mask are kept afterwards; the edges of each face with a simple boundary are again stored as a polygon.", "quantifier": "all meshes reached by any history, all sequences of removals and restorations, all masks, all decisions about orientation", "why_tests_cant": "Any combination of masks in any order on any mesh; the restored lists come from the opposite direction.", "anchors": [{"file": "Source/Mesh/mesh.cpp", "symbols": ["Mesh::RemoveUpperAdjacencies", "Mesh::RemoveLowerAdjacencies", "Mesh::RestoreUpperAdjacencies", "Mesh::RestoreLowerAdjacencies", "Mesh::HaveUpperAdjacencies", "Mesh::HaveLowerAdjacencies"]}]}
{"id": "C95", "title": "RemoveGhost deletes the ghost layer and leaves a consistent partition", "statement": "After RemoveGhost every processor has exactly its owned and shared cells (with a marker: all but the marked ghosts), and of the ghost faces, edges and nodes exactly those that the remaining elements stand on; owned and shared elements, owners and global numbers stay. The list of processors of each element then names exactly the processors that still have it, the status fits, and the stored lists of shared and ghost elements are the right ones. The call ends on all processors under every order of message delivery.", "quantifier": "all numbers of processors, all distributed meshes with consistent parallel states, all orders of delivery of messages", "why_tests_cant": "Depends on every order of delivery on any number of processors and on any distribution.", "anchors": [{"file": "Source/Mesh/parallel.cpp", "symbols": ["Mesh::RemoveGhost", "DeleteUnpack"]}]}
{"id": "C96", "title": "RemoveGhostElements deletes the elements each processor names and leaves a consistent partition", "statement": "Every processor may pass any cells and sets; the ghosts among them are deleted, together with the ghost faces, edges and nodes that nothing remaining stands on, and nothing else. All other holders learn of it: the lists of processors, the statuses and the stored lists of shared and ghost elements are right afterwards. The call ends under every order of message delivery.", "quantifier": "all numbers of processors, all consistent distributed meshes, all arrays passed by the processors, all orders of delivery", "why_tests_cant": "Each processor chooses independently; consistency must hold for every combination and every schedule.", "anchors": [{"file": "Source/Mesh/parallel.cpp", "symbols": ["Mesh::RemoveGhostElements", "DeleteUnpack"]}, {"file": "Source/Headers/inmost_mesh.h", "symbols": ["RemoveGhostElements"]}]}
{"id": "C97", "title": "Elements sent to another processor arrive complete, once, with their data", "statement": "Any selection of elements of a processor can be packed for any other processor and unpacked there without failure. The receiver then has what it had and the selected elements with all faces, edges and nodes they are built of, and nothing else; no element twice. Elements it already had are recognised. Copies of elements it does not own get the values and processor lists of the sender, its own elements keep theirs. The sender lists the receiver at its own elements that were sent.", "quantifier": "all distributed meshes with a consistent parallel state, all selections, all pairs of processors, numbers or connectivity as the way to recognise elements", "why_tests_cant": "Whether an element is recognised or created depends on what both processors hold; every overlap of the two parts of the mesh and every selection must work.", "anchors": [{"file": "Source/Mesh/parallel.cpp", "symbols": ["Mesh::PackElementsGather", "Mesh::PackElementsData", "Mesh::UnpackElementsData", "Mesh::FindSharedGhost"]}]}
{"id": "C98", "title": "ExchangeMarked gives every processor the marked elements and keeps the parallel state consistent", "statement": "Elements are marked with processors to be sent to, on any processors. ExchangeMarked ends for every order of arrival of messages, without failed assertion. Afterwards each processor has exactly what it had and what was marked for it (with all this is built of); everything it had is unchanged. The processor list of every copy of every element names exactly the processors that have the element, statuses and the stored lists of shared and ghost elements are right, and equal values of copies stay equal. So the call can be repeated.", "quantifier": "all numbers of processors, all distributed meshes with a consistent parallel state, all marks, all orders of arrival in both rounds of messages", "why_tests_cant": "Several processors may send the same element to the same processor, or learn of each other through a third one; all orders of arrival must give the same knowledge.", "anchors": [{"file": "Source/Mesh/parallel.cpp", "symbols": ["Mesh::ExchangeMarked", "Mesh::InformElementsOwners", "Mesh::RecomputeParallelStorage", "Mesh::SendtoTag"]}]}
{"id": "C99", "title": "ExchangeGhost gives every processor exactly the requested layers of ghost cells", "statement": "After ExchangeGhost(layers,bridge) each processor has, besides what it had, exactly the cells that can be reached from its own cells by at most the given number of steps, each from a cell to another cell at a common element of the bridge type, with all faces, edges and nodes of these cells. The call ends without failed assertion for any number of layers; nothing that was there is lost or renumbered; the processors know who has what, statuses and lists of shared and ghost elements are right, and equal values of copies stay equal.", "quantifier": "all numbers of processors, all consistent distributed meshes in which a face has at most two cells, all bridges (nodes, edges, faces), all numbers of layers", "why_tests_cant": "A layer is assembled from what different processors know about each other after the layers before it; all shapes of the interface between processors must work.", "anchors": [{"file": "Source/Mesh/parallel.cpp", "symbols": ["Mesh::ExchangeGhost", "Mesh::ComputeSharedSkinSet", "UnpackSkin", "UnpackOnSkin"]}]}
{"id": "C100", "title": "Redistribute moves every element to its new owner and loses nothing", "statement": "The user gives every cell a new owner and calls Redistribute. The call ends without failed assertion whatever the order of messages. Afterwards every cell has the owner it was given; every element has exactly one owner, which has it, and all processors agree on the owner and on the list of processors that have the element; a processor has exactly its cells (without layers: exactly the cells it owns) and the faces, edges and nodes of these cells; no element is lost or duplicated and every copy has the values of the tags it had before.", "quantifier": "all numbers of processors, all consistent distributed meshes, all assignments of new owners to cells, all numbers of layers and bridges, all orders of arrival of messages", "why_tests_cant": "Each processor decides alone what to send and what to delete, and the decisions must fit together for every distribution before and after the call.", "anchors": [{"file": "Source/Mesh/parallel.cpp", "symbols": ["Mesh::Redistribute", "Mesh::ExchangeMarked", "determine_my_procs_high", "RedistUnpack"]}, {"file": "Source/Mesh/element.cpp", "symbols": ["Element::SendTo"]}]}
{"id": "C101", "title": "Redistribute builds the requested layers of ghost cells", "statement": "With the options for layers and bridge set, after Redistribute each processor has exactly the cells that can be reached from the cells it owns now by at most the given number of steps, each from a cell to another cell at a common element of the bridge type, with their faces, edges and nodes.", "quantifier": "all numbers of processors, all consistent distributed meshes in which a face has at most two cells, all assignments of new owners, all numbers of layers, all bridges", "why_tests_cant": "The layers of a new owner are computed by the old owners, each of which sees only a part of the mesh.", "anchors": [{"file": "Source/Mesh/parallel.cpp", "symbols": ["Mesh::Redistribute", "RedistUnpack"]}]}
{"id": "C102", "title": "A copied or assigned mesh contains what the original contains", "statement": "After Mesh b(a) and after b = a the mesh b has the tags of a (names, types, sizes, types of elements, sparse or not), the elements of a under the same local numbers with the same places of data, and for every tag and every element the same data as a; an element without data of a sparse tag in a has none in b.", "quantifier": "all histories of calls on the original before the copy, all tags, all elements, all previous contents of the mesh that is assigned to", "why_tests_cant": "A test copies a small mesh and compares what it thinks of; whether every kind of tag on every type survives for every history of deletions and creations needs an argument.", "anchors": [{"file": "Source/Mesh/mesh.cpp", "symbols": ["Mesh::Mesh(const Mesh &)", "Mesh::operator ="]}, {"file": "Source/Data/tag.cpp", "symbols": ["TagManager::TagManager", "TagManager::operator =", "TagManager::CopyData"]}]}
{"id": "C103", "title": "A copied mesh can be used like any other mesh", "statement": "After Mesh b(a) or b = a any calls on b - creation and destruction of elements, creation and deletion of tags, writing and deletion of data, ReorderEmpty - keep elements of b from sharing places of data and tags of b from sharing columns, and a call changes no data of other elements or tags.", "quantifier": "all histories on the original, all histories on the copy", "why_tests_cant": "The damage of a wrong copy of free places or columns shows only after a particular later sequence of calls.", "anchors": [{"file": "Source/Mesh/mesh.cpp", "symbols": ["Mesh::Mesh(const Mesh &)", "Mesh::operator =", "Mesh::ReorderEmpty", "Mesh::TieElement", "Mesh::DeallocatePrivateMarkers"]}, {"file": "Source/Data/tag.cpp", "symbols": ["TagManager::operator =", "TagManager::CreateTag"]}]}
{"id": "C104", "title": "CopyTagData and DuplicateTagData copy the data of a tag and change nothing else", "statement": "CopyTagData(a,b) for two tags of the same type and size gives b the data of a on every element that is not hidden and on the mesh, where both tags are defined; where a is sparse and has no data, b has none (a fresh record if b is not sparse). Data of a, of other tags, of hidden elements is unchanged. DuplicateTagData makes a tag of the given name with the same type, size, types of elements, sparsity and data.", "quantifier": "all meshes, all pairs of tags, all sets of hidden elements", "why_tests_cant": "Combinations of sparse and dense tags, data and no data, the mesh itself, and a tag copied to itself are many.", "anchors": [{"file": "Source/Mesh/mesh.cpp", "symbols": ["Mesh::CopyTagData", "Mesh::DuplicateTagData"]}, {"file": "Source/Data/tag.cpp", "symbols": ["TagManager::CopyData"]}]}
{"id": "C105", "title": "Cells get the right geometric type and their nodes in the order of VTK", "statement": "A cell without hidden parts whose faces are those of a tetrahedron, hexahedron, prism or pyramid gets this geometric type, and a polygon that of its number of sides. RestoreCellNodes of a cell of such a type returns its nodes in the order of the VTK cell types, beginning with a face of the cell as it is seen from inside; for a cell of dimension two the corners in their order, for a general polyhedron every node once. Cells created without suggested nodes have these nodes.", "quantifier": "all meshes, all orders in which the faces of the cell and the edges of a face are stored, all orientations of the faces", "why_tests_cant": "There are 720 orders of the faces of a hexahedron, 8 ways to store each face and two orientations of each; a test looks at one or two.", "anchors": [{"file": "Source/Mesh/mesh.cpp", "symbols": ["Mesh::RestoreCellNodes", "Mesh::CreateCell"]}, {"file": "Source/Mesh/geometry.cpp", "symbols": ["Mesh::ComputeGeometricType", "Mesh::TestClosure"]}]}
{"id": "C106", "title": "Expressions of dense matrices give the elements of the mathematical operations", "statement": "For matrices A, B and expressions of sums, differences, negation, transposition, concatenation, submatrices, blocks, repacking, scaling and Kronecker products of any depth: Rows(), Cols() and every element (i,j) are those of the mathematical operation. The product, Trace() and DotProduct() give the mathematical sums, and the product of matrices of variables carries the derivatives of the product.", "quantifier": "all sizes, all elements of any commutative ring, all depths of nested expressions and views", "why_tests_cant": "Expressions nest without limit and every element is computed lazily through the index maps of all levels; tests look at some operations of small fixed sizes.", "anchors": [{"file": "Source/Headers/inmost_dense.h", "symbols": ["MatrixSum", "MatrixDifference", "ConstMatrixTranspose", "ConstSubMatrix", "ConstBlockOfMatrix", "ConstMatrixRepack", "KroneckerProduct", "MatrixMul", "AbstractMatrixReadOnly::Trace", "AbstractMatrixReadOnly::DotProduct"]}]}
{"id": "C107", "title": "Assignments of expressions of dense matrices store the value of the expression", "statement": "After A = e, V = e, V += e, V -= e, V *= c, V /= c, V *= e for a matrix A or a view V (submatrix, transposed, repacked) the left side has the elements the mathematical operation gives for the values before the assignment, and nothing else changes.", "quantifier": "all expressions on the right side, including those that use the left side, all sizes, all nested views", "why_tests_cant": "The elements of the right side are computed while the left side is being overwritten, so the result depends on how both share memory; tests use separate matrices.", "anchors": [{"file": "Source/Headers/inmost_dense.h", "symbols": ["AbstractMatrix::operator =", "Matrix::operator =", "SubMatrix::operator =", "AbstractMatrix::operator +=", "AbstractMatrix::operator *="]}]}
{"id": "C108", "title": "Det returns the determinant of a square matrix", "statement": "For a square matrix of any size Det() returns its determinant (in exact arithmetic).", "quantifier": "all sizes, all matrices, all orders in which rows become pivots", "why_tests_cant": "The elimination takes a different path for every pattern of zeros, and its tolerances compare numbers that arise during the elimination; tests look at a few matrices.", "anchors": [{"file": "Source/Headers/inmost_dense.h", "symbols": ["AbstractMatrixReadOnly::Det"]}]}
{"id": "C109", "title": "A Residual collects, measures and rescales a system of equations", "statement": "Contributions R[k] += expr add up: whatever their number and order, equation k holds the value of the sum of its contributions and its row is the gradient of this sum; Clear makes all equations of the process 0 = 0; Norm is the Euclidean norm over the equations of all processes however they are distributed; Rescale(p) scales every equation with a nonzero row to p-norm one by one positive factor for value, row and Hessian row, so that the solutions of the linear system stay the same, and a second Rescale changes nothing; SetInterval keeps the equations that are in both intervals; after InitLocks each equation can be locked.", "quantifier": "all systems, numbers and orders of contributions, all expressions, norms p, all distributions over processes", "why_tests_cant": "Sums of contributions depend on an order chosen by threads, and the norm on a distribution chosen by a partitioner; tests fix both.", "anchors": [{"file": "Source/Autodiff/residual.cpp", "symbols": ["Residual::Clear", "Residual::Norm", "Residual::Rescale", "Residual::SetInterval"]}, {"file": "Source/Headers/inmost_residual.h", "symbols": ["Residual", "Residual::operator []", "Residual::Lock", "Residual::InitLocks"]}, {"file": "Source/Headers/inmost_expression.h", "symbols": ["multivar_expression_reference::operator +="]}]}
{"id": "C110", "title": "Products of Hessian matrices are exact", "statement": "HessianMatrix::MatVec(alpha,U,beta,J) gives J := beta*J + alpha*H*U row by row, H being the second derivatives that the row stores and U, J rows of first derivatives; an empty J is created.", "quantifier": "all rows, all numbers of entries, all alpha and beta", "why_tests_cant": "The sparsity patterns of H, U and J vary independently; tests use one pattern.", "anchors": [{"file": "Source/Solver/sparse.cpp", "symbols": ["HessianRow::RowVec", "HessianMatrix::MatVec"]}, {"file": "Source/Headers/inmost_sparse.h", "symbols": ["HessianMatrix"]}]}
{"id": "C111", "title": "Uniting sorted sets gives a sorted set of the elements of both", "statement": "ElementSet::Unite of two sets sorted by the same comparator leaves a set that contains exactly the elements of both, each once, in the order of the comparator.", "quantifier": "all sets, all comparators, all numbers and orders of elements, with and without removed elements", "why_tests_cant": "The result depends on how the two sorted sequences interleave and on which of them ends first; tests use a few interleavings.", "anchors": [{"file": "Source/Mesh/eset.cpp", "symbols": ["ElementSet::Unite"]}]}
{"id": "C112", "title": "Adding many elements to a sorted set adds each of them once, for every comparator", "statement": "AddElements(list) on a set sorted by global numbers, by hierarchy or by centroids leaves a set with exactly the old elements and the listed ones, each once, in the order of the comparator.", "quantifier": "all sets, all lists, all comparators that are strict weak orders", "why_tests_cant": "As for C17: depends on how old and new elements interleave.", "anchors": [{"file": "Source/Mesh/eset.cpp", "symbols": ["ElementSet::AddElements"]}, {"file": "Source/Headers/inmost_mesh.h", "symbols": ["Mesh::GlobalIDComparator", "Mesh::CentroidComparator", "Mesh::HierarchyComparator"]}]}
{"id": "C113", "title": "PutElements puts all given elements into a set", "statement": "After PutElements(list) the set has its old elements and those of the list, each as many times as it is listed, and its size is the number of its elements, whatever was removed before.", "quantifier": "all sets, all patterns of holes, all lists", "why_tests_cant": "The number of holes and the number of new elements vary independently.", "anchors": [{"file": "Source/Mesh/eset.cpp", "symbols": ["ElementSet::PutElements"]}]}
{"id": "C114", "title": "Deleting sets keeps the hierarchy of the others", "statement": "DeleteSet destroys one set, its children become sets without parent and siblings; DeleteSetTree destroys exactly the set and all sets below it, each once; all other sets keep their parents and the order of their children.", "quantifier": "all hierarchies obtained by any history of operations, all sets", "why_tests_cant": "The recursion follows links of the hierarchy while it destroys them, for trees of any shape and depth.", "anchors": [{"file": "Source/Mesh/eset.cpp", "symbols": ["ElementSet::DeleteSet", "ElementSet::DeleteSetTree", "ElementSet::Clear"]}, {"file": "Source/Mesh/modify.cpp", "symbols": ["Mesh::Destroy"]}]}
{"id": "C115", "title": "The binary heap is a priority queue", "statement": "BinaryHeap (and BinaryHeapDense): along every history of PushHeap of absent items, PopHeap, PeekHeap, DecreaseKey, Contains, Size and Clear no access leaves the arrays, PopHeap and PeekHeap give an item with the smallest key, or ENUMUNDEF exactly when the queue is empty, and the keys in the caller's array are the ones last given.", "quantifier": "all numbers of items, all arrays of keys over a linear order, all histories", "why_tests_cant": "The order of slots depends on the whole history; tests see a few heaps.", "anchors": [{"file": "Source/Misc/utils.h", "symbols": ["BinaryHeap"]}, {"file": "Source/Headers/inmost_dense.h", "symbols": ["BinaryHeapDense"]}]}
{"id": "C116", "title": "The heap with a comparator is a priority queue, also when keys change", "statement": "BinaryHeapCustom behaves as the priority queue of C115 for the comparator given, with IncreaseKey and ChangeKey moving an item to where its new key belongs.", "quantifier": "all comparators that are the strict or the non-strict order, all histories", "why_tests_cant": "As C115; in addition a wrong move shows up only in later calls.", "anchors": [{"file": "Source/Misc/utils.h", "symbols": ["BinaryHeapCustom"]}]}
{"id": "C117", "title": "The reordering of the MPTILU2 preconditioner is a permutation", "statement": "The maximum transversal reordering at the start of the factorization ends for every matrix without failed assert and without access by an undefined position; its result is a permutation of all rows, and every column matched by the search has an entry of the matrix on the diagonal.", "quantifier": "all sizes, all sparse matrices, all arithmetics with comparisons where x<=y excludes y<x (also with rounding, overflow and NaN)", "why_tests_cant": "The search with its heap, linked lists of visited columns and dual variables is driven by the values; a wrong link shows up only for long alternating paths.", "anchors": [{"file": "Source/Solver/solver_inner/solver_mptilu2/solver_mtilu2.cpp", "symbols": ["MTILU2_preconditioner::Initialize"]}]}
{"id": "C118", "title": "The reordering finds the largest product on the diagonal", "statement": "If some permutation of the rows has no zeros on the diagonal, the reordering matches every column, and no permutation has a larger product of absolute values of entries on the diagonal; the dual variables satisfy U+V <= cost on the whole pattern with equality on the matched entries.", "quantifier": "all sizes, all sparse matrices without stored zeros with values in an ordered ring, exact arithmetic", "why_tests_cant": "There are n! permutations; optimality follows only from duality.", "anchors": [{"file": "Source/Solver/solver_inner/solver_mptilu2/solver_mtilu2.cpp", "symbols": ["MTILU2_preconditioner::Initialize"]}]}
{"id": "C119", "title": "Objects of a model are found by their names", "statement": "Along every history of AddMesh, AddEntry, AddFirstEntry, AddAfterEntry, AddSubModel, AddOperator, AddScalarFunction, AddMatrixFunction and AddCouplingTerm, the Get functions return the object added under the name (NULL for other names), a name is accepted once per kind, and the lists of names have every name once, in the order of the calls; entries are in the order asked for.", "quantifier": "all histories of calls, all names", "why_tests_cant": "The order of entries and the acceptance of names depend on the whole history.", "anchors": [{"file": "Source/Autodiff/model.cpp", "symbols": ["Model::AddAfterEntry", "Model::GetCouplingTerm", "Model::GetScalarFunctionNames"]}]}
{"id": "C120", "title": "A model calls each of its parts once", "statement": "FillResidual clears the residual and calls every active submodel, in order, and every coupling term of an active submodel; UpdateSolution calls the active submodels; UpdateTimeStep, SetTimeStep, RestoreTimeStep and PrepareIterations call all parts; each part is called once even if another fails, and the result is true exactly when all parts succeed.", "quantifier": "all histories of calls, all behaviours of the parts", "why_tests_cant": "Parts are provided by users; the claim is about all of them and all patterns of activation.", "anchors": [{"file": "Source/Autodiff/model.cpp", "symbols": ["Model::FillResidual", "Model::UpdateTimeStep"]}, {"file": "Source/Headers/inmost_model.h", "symbols": ["Model::AddCouplingTerm"]}]}
{"id": "C121", "title": "Multiplier and time step of a model are the least ones", "statement": "UpdateMultiplier is the least of one and the values of the active submodels, coupling terms and functions of all processes; AdjustTimeStep the least of the given step and the values of all parts; all processes get the same number.", "quantifier": "all histories, all values, all numbers of processes", "why_tests_cant": "A minimum over parts of unknown number and processes.", "anchors": [{"file": "Source/Autodiff/model.cpp", "symbols": ["Model::UpdateMultiplier", "Model::AdjustTimeStep"]}]}
{"id": "C122", "title": "Initialization of a model reaches everything that was added", "statement": "Model::Initialize initializes every submodel, operator, coupling term and function and registers every entry that the model has in the end, also those added by the parts during the initialization, each once; it succeeds exactly when all parts do, and then nothing can be added any more.", "quantifier": "all models, all additions made by the parts while they are initialized", "why_tests_cant": "Parts change the tables while these are traversed.", "anchors": [{"file": "Source/Autodiff/model.cpp", "symbols": ["Model::Initialize"]}]}
{"id": "C123", "title": "The partitioner INNER_RCM gives every cell a processor and limits the parts", "statement": "For a mesh that lives on one process, Evaluate with INNER_RCM ends, gives every cell a processor that exists, gives no processor more than cells/processors+1 cells, and leaves no processor without cells when there are at least as many cells as processors.", "quantifier": "all meshes (any adjacency), all numbers of processors", "why_tests_cant": "The search starts again at every border of a part; the claim is about all graphs and sizes.", "anchors": [{"file": "Source/Partitioner/partitioner.cpp", "symbols": ["Partitioner::Evaluate"]}]}
{"id": "C124", "title": "The partitioner INNER_SKMEANS leaves no processor without cells", "statement": "For cells spread over the processes in any way, with coordinates whose squared distances stay below the largest number, Evaluate with INNER_SKMEANS ends, gives every cell a processor that exists, and every processor gets a cell when there are at least as many cells as processors; in an iteration a cell goes to the nearest centre.", "quantifier": "all distributions and positions of cells, all numbers of processors, all random numbers, with and without the exchange for balance", "why_tests_cant": "Depends on the course of an iteration over real positions and random numbers.", "anchors": [{"file": "Source/Partitioner/partitioner.cpp", "symbols": ["Partitioner::Evaluate"]}]}
{"id": "C125", "title": "The partitioner INNER_KMEANS gives every cell a processor", "statement": "For cells spread over the processes in any way, with coordinates whose squared distances stay below the largest number, Evaluate with INNER_KMEANS ends, gives every cell a processor that exists, and every processor gets a cell when there are at least as many cells as processors.", "quantifier": "all distributions and positions of cells, all numbers of processors, all random numbers, with and without the exchange for balance", "why_tests_cant": "Depends on the course of an iteration over real positions and random numbers.", "anchors": [{"file": "Source/Partitioner/partitioner.cpp", "symbols": ["Partitioner::Evaluate"]}]}
{"id": "C126", "title": "Arrays over an index interval behave like lists with a first index", "statement": "For the arrays under Sparse::Vector, Sparse::Matrix and LockService: every history of creating, copying, assigning, swapping, clearing, moving the first index, changing the end, reading and writing within the interval runs without touching memory that is not there and returns what lists with a first index return; moving the first index keeps the values by position, a new end cuts or fills up; when all are destroyed, no memory is left.", "quantifier": "all histories of calls on any number of arrays, all intervals within the index type", "why_tests_cant": "Depends on the history of sizes and pointers; the array is reached through a pointer outside of its block.", "anchors": [{"file": "Source/Headers/container.hpp", "symbols": ["interval"]}]}
{"id": "C127", "title": "Threads that add to equations under locks lose nothing and do not block each other", "statement": "When several threads add to equations, each addition between Lock and UnLock of its equation, then under every schedule no two threads are inside the same equation, some thread can always go on, and after all have finished each equation has its initial value plus everything added to it.", "quantifier": "all schedules, all numbers of threads, all lists of additions, all initial values", "why_tests_cant": "A lost addition needs a particular interleaving; tests see a few.", "anchors": [{"file": "Source/Headers/inmost_residual.h", "symbols": ["Residual::Lock", "Residual::UnLock"]}, {"file": "Source/Solver/sparse.cpp", "symbols": ["Sparse::LockService::Lock"]}]}
{"id": "C128", "title": "Locks of equations are initialized when used and destroyed once", "statement": "For every history of giving a LockService a new interval (also by constructor, copy or assignment), locking, unlocking and testing rows: every lock used is initialized, TestLock tells whether the row was free, and each lock is destroyed exactly once; for a Residual, TestLock succeeds whenever Lock would.", "quantifier": "all histories of calls, all intervals", "why_tests_cant": "Use of a destroyed lock shows up only in some implementations of OpenMP and only for some histories.", "anchors": [{"file": "Source/Solver/sparse.cpp", "symbols": ["Sparse::LockService::SetInterval"]}, {"file": "Source/Headers/inmost_sparse.h", "symbols": ["LockService"]}, {"file": "Source/Headers/inmost_residual.h", "symbols": ["Residual::TestLock"]}]}
{"id": "C129", "title": "Names of solvers: listed, available and usable are the same, and solvers know their names", "statement": "In every build: a name can be used to make a Solver exactly when getAvailableSolvers lists it and exactly when isSolverAvailable says so, no name is listed twice, the Solver reports the name it was made with, and a copy of a Solver is a solver of the same kind.", "quantifier": "all builds (sets of packages), all names", "why_tests_cant": "Tests run in one build with a few names; the three lists are written by hand in three places.", "anchors": [{"file": "Source/Solver/SolverMaster.cpp", "symbols": ["SolverMaster::getSolver", "SolverMaster::getAvailableSolvers", "SolverMaster::isSolverAvailable"]}, {"file": "Source/Solver/solver.cpp", "symbols": ["Solver::Solver"]}]}
{"id": "C130", "title": "A Solver gets its parameters from the last matching element of the database", "statement": "After Solver::Initialize with an XML database, a Solver made with a name and a prefix has every parameter at the value given for it in the last element for this name and prefix (from the named file if there is one), at its default if there is none; Finalize forgets; GetParameter returns what SetParameter set.", "quantifier": "all databases, all histories of Initialize and Finalize, all names, prefixes and parameters", "why_tests_cant": "Order of elements, repeated elements and histories of initialization are unbounded.", "anchors": [{"file": "Source/Solver/solver.cpp", "symbols": ["Solver::parseXMLDatabase", "Solver::Solver"]}, {"file": "Source/Solver/solver_inner/SolverInner.cpp", "symbols": ["SolverInner::Setup", "SolverInner::GetParameter"]}]}
{"id": "C131", "title": "A Solver solves with the matrix and the parameters set last", "statement": "For every history of SetMatrix, SetParameter, Solve, Clear and Iterations on a Solver: Solve throws exactly when no matrix is set, communicators differ or sizes differ; otherwise it uses the matrix set last, a preconditioner made from that matrix with the parameters of that moment (or the old one when OldPreconditioner is given) and the tolerances of the moment of Solve; after Clear the Solver can be used again; no matrix is leaked or used after it was deleted.", "quantifier": "all histories of calls", "why_tests_cant": "Errors depend on the order of calls.", "anchors": [{"file": "Source/Solver/solver.cpp", "symbols": ["Solver::Solve"]}, {"file": "Source/Solver/solver_inner/SolverInner.cpp", "symbols": ["SolverInner::Clear"]}, {"file": "Source/Solver/solver_inner/solver_ilu2/SolverILU2.cpp", "symbols": ["SolverILU2::SetMatrix"]}]}
{"id": "C132", "title": "The buffer of results holds the last results and answers questions about them truthfully", "statement": "After any sequence of results an optimizer's buffer shows exactly the last ones, newest first, as many as its capacity; the last successful result is the newest one marked good among them and is there exactly when the buffer says so; the unique entries are pairwise different, at most as many as asked for, and every result is close to one of them unless the limit was reached.", "quantifier": "all sequences of results, all capacities, all limits", "why_tests_cant": "The number of results and the wrap around of the buffer are unbounded.", "anchors": [{"file": "Source/Optimizer/optimizers.cpp", "symbols": ["OptimizationParameterResultsBuffer::push", "OptimizationParameterResultsBuffer::GetLastSuccessfulResult", "OptimizationParameterResultsBuffer::GetLastUniqueEntries"]}]}
{"id": "C133", "title": "Optimization parameters: announced points are the points in use after the update; ranges and closest values", "statement": "The points announced for a list of changes are the points in use after these changes are accepted; a range parameter lists its values from the lower end in steps and only those below the upper end; the closest value of a parameter is listed and no listed value is closer.", "quantifier": "all parameters, lists of changes, ranges, steps and targets", "why_tests_cant": "Ranges and steps are real numbers; lists are unbounded.", "anchors": [{"file": "Source/Optimizer/optimizers.cpp", "symbols": ["OptimizationParameters::Update", "OptimizationParameters::GetPointsWithChangedParameters", "OptimizationParameter::OptimizationParameter", "OptimizationParameter::GetClosestTo"]}]}
{"id": "C134", "title": "An optimizer uses points that were measured and good", "statement": "Whatever the history of suggestions and results, the points in use are those the optimizer was made with or those of a use that was marked good, with the metrics measured for them; after too many failures in a row a restart returns to the best of the recent results.", "quantifier": "all algorithms that keep to the interface, all histories of results, all capacities and restart settings", "why_tests_cant": "Histories are unbounded and the restart depends on the whole recent history.", "anchors": [{"file": "Source/Optimizer/optimizers.cpp", "symbols": ["OptimizerInterface::Suggest", "OptimizerInterface::SaveResult", "OptimizerInterface::RestartWithBestStrategy"]}]}
{"id": "C135", "title": "The alternating optimizer suggests listed values, one parameter at a time, and tries all of them", "statement": "Every suggestion of the alternating optimizer changes exactly one parameter to one of its listed values, the parameters take turns, it never throws, values in use change only for better results, and every value is tried sooner or later.", "quantifier": "all parameters, all histories of results", "why_tests_cant": "The search depends on the whole history of results.", "anchors": [{"file": "Source/Optimizer/optimizers/alternating/alternating.cpp", "symbols": ["AlternatingOptimizer::AlgorithmMakeSuggestion", "AlternatingOptimizer::UpdateSpaceWithLatestResults"]}]}
{"id": "C136", "title": "The annealing optimizer stays in the range and jumps no further than allowed", "statement": "Every suggestion of the annealing optimizer, for every sequence of random numbers, changes exactly one parameter to a value in its range (a listed value if asked for), no further from the value in use than the configured part of the range, and the values in use stay in the range.", "quantifier": "all parameters, configurations, histories and sequences of random numbers", "why_tests_cant": "Random numbers cannot be enumerated.", "anchors": [{"file": "Source/Optimizer/optimizers/annealing/annealing.cpp", "symbols": ["AnnealingOptimizer::AlgorithmMakeSuggestion", "AnnealingParameterHandler::GetNextValue"]}]}
{"id": "C137", "title": "Automatic tuning applies to the solvers that were enabled, each with its own optimizer", "statement": "After any history of Initialize, Deinitialize, Enable, Disable, SolverOptimize and DestroySavedOptimizer a solver with a prefix is tuned exactly as the last call that concerns it says; the optimizer used was made from the entry of the present configuration for this solver and prefix; no call fails and no optimizer is lost.", "quantifier": "all histories of calls, all configurations, names and prefixes", "why_tests_cant": "Histories and configurations are unbounded; keys are strings put together.", "anchors": [{"file": "Source/Solver/ttsp/ttsp.cpp", "symbols": ["TTSP::Enable", "TTSP::Disable", "TTSP::SolverOptimize", "TTSP::DestroySavedOptimizer"]}, {"file": "Source/Solver/ttsp/ttsp_configuration.cpp", "symbols": ["TTSPConfiguration::FindForSolverAndPrefix"]}]}
{"id": "C138", "title": "A set kept sorted by IDs finds, adds and removes elements by their IDs", "statement": "FindElementByGlobalID returns an element of the set with the given ID exactly if the set has one; FindHandle says whether an element is in the set; AddElement adds it exactly if it is missing and RemoveElement removes exactly it; the set stays sorted and later searches remain right.", "quantifier": "all sets, all assignments of IDs, all elements, all histories of additions and removals", "why_tests_cant": "Binary search over sets of any size with any IDs.", "anchors": [{"file": "Source/Mesh/eset.cpp", "symbols": ["ElementSet::FindElementByGlobalID", "ElementSet::FindHandle", "ElementSet::AddElement", "ElementSet::RemoveElement"]}, {"file": "Source/Mesh/comparator.cpp", "symbols": ["Mesh::CentroidComparator::Compare"]}]}
{"id": "C139", "title": "A formula written once with dynamic variables is right on every element", "statement": "On every element where the formula is defined and smooth, the value of a dynamic variable is the value of the formula there, and its variation is the gradient with respect to the unknowns, one entry per unknown; entries that are not valid on an element count as constants; only the branch chosen for the element is used.", "quantifier": "all formulas, elements, values of the unknowns, sets of active elements", "why_tests_cant": "Formulas nest without bound and unknowns are real numbers.", "anchors": [{"file": "Source/Headers/inmost_variable.h", "symbols": ["dynamic_variable", "etype_branch_variable", "unary_const_custom_variable", "binary_custom_variable", "ternary_custom_variable"]}]}
{"id": "C140", "title": "Stored formulas are values", "statement": "After any history of constructions, copies, assignments and destructions every stored formula is the one it was last given, independent of the others; nothing is used after it is deleted, nothing is deleted twice and all memory is returned.", "quantifier": "all histories of operations on any number of objects", "why_tests_cant": "Histories are unbounded; ownership errors show only in particular orders.", "anchors": [{"file": "Source/Headers/inmost_variable.h", "symbols": ["stored_variable_expression"]}]}
{"id": "C141", "title": "Elements are values: assigning one changes nothing else", "statement": "A variable of an element and a slot of an array of elements hold one element (a mesh and a handle); an assignment to a variable or a slot changes it and nothing else, and fails only where there is no such variable or slot.", "quantifier": "all programs over any number of variables and arrays, all meshes and handles", "why_tests_cant": "Aliasing shows only after particular sequences of operations, and dangling addresses only after particular lifetimes.", "anchors": [{"file": "Source/Data/storage.cpp", "symbols": ["Storage::operator =", "Storage::reference_array::operator []", "Storage::remote_reference_array::operator []"]}, {"file": "Source/Headers/inmost_mesh.h", "symbols": ["ElementArray::operator []"]}]}
{"id": "C142", "title": "Sums and extrema over all processes count every element once and agree", "statement": "Integrate of a tag gives every process the sum over the elements of the whole mesh, each counted once; sums, maxima, minima, numbers of elements and unions of types agree on all processes and are right; ExclusiveSum numbers things on all processes one after another without gaps.", "quantifier": "all distributions with one copy that is no ghost per element, all values, masks and entries", "why_tests_cant": "All distributions and numbers of processes.", "anchors": [{"file": "Source/Mesh/parallel.cpp", "symbols": ["Mesh::Integrate", "Mesh::ExclusiveSum", "Mesh::AggregateMax", "Mesh::AggregateMin", "Mesh::TotalNumberOf"]}]}
{"id": "C143", "title": "Formulas of blocks: values and derivatives belong to each other", "statement": "For a formula of blocks of unknowns (sums, products, transposes, parts, concatenations, stencils, tables, branches, multiplication by scalars), Value on an element is the matrix the formula means, and Variable has the same sizes and values with the partial derivatives of each element with respect to every unknown.", "quantifier": "all formulas, elements, values of unknowns, sizes and coefficients", "why_tests_cant": "All formulas of all depths; derivatives are limits over all nearby values.", "anchors": [{"file": "Source/Headers/inmost_block_variable.h", "symbols": ["abstract_dynamic_block_variable", "stencil_block_variable", "condition_block_variable", "multiply_variable_block_variable"]}]}
{"id": "C144", "title": "The list of neighbouring processes is exact, ordered and mutual", "statement": "The list of neighbouring processes computed for types of elements holds exactly the other processes named by elements of these types, in increasing order without repetitions, for every distribution of the loop over threads; if the processors of elements agree, neighbours are mutual, so each awaited message has a sender.", "quantifier": "all sets of elements, masks of types, distributions over threads and orders in which threads finish", "why_tests_cant": "All schedules of the threads and all distributions of elements.", "anchors": [{"file": "Source/Mesh/parallel.cpp", "symbols": ["Mesh::ComputeSharedProcs"]}]}
{"id": "C145", "title": "Copying the data of an element changes that element only and copies all of the data", "statement": "CopyData(a,b) gives a the data of b for every tag that is no service tag and has a counterpart in the mesh of a, and the markers of b; nothing else changes on a, and nothing on other elements of any mesh.", "quantifier": "all meshes (one or two), tags, types and sizes of data, elements", "why_tests_cant": "All combinations of tags of two meshes, sparse and dense, of fixed and variable size.", "anchors": [{"file": "Source/Mesh/mesh.cpp", "symbols": ["Mesh::CopyData"]}, {"file": "Source/Data/tag.cpp", "symbols": ["TagManager::CopyData", "TagManager::GetTag"]}]}
{"id": "C146", "title": "Saved optimizers are those of the last call for each name and none is leaked or deleted twice", "statement": "After every history of SaveOptimizerOrReplace, GetSavedOptimizer gives for each name the optimizer made by the last call for this name with parameters, or null if its type is unknown; the optimizers that exist are exactly the saved ones, no two names share one, none is deleted twice; a type is announced available exactly when an optimizer of this type can be made.", "quantifier": "all histories of calls, names, types and parameters, both build configurations", "why_tests_cant": "All histories of calls.", "anchors": [{"file": "Source/Optimizer/optimizers.cpp", "symbols": ["Optimizers::SaveOptimizerOrReplace", "Optimizers::GetSavedOptimizer", "Optimizers::GetOptimizer", "Optimizers::IsOptimizerAvailable"]}]}
{"id": "C147", "title": "Configuration of optimizers is read as it is written", "statement": "A line with a type, a name, a default value and values gives a parameter with this name, default value and values, as a list or as a range with a step according to the type; lines are added in their order; reading ends for every line.", "quantifier": "all lines, files and parameters already present", "why_tests_cant": "All lines with any count of values.", "anchors": [{"file": "Source/Optimizer/optimizers.cpp", "symbols": ["OptimizersConfiguration::ParseOptimizationParameter", "OptimizersConfiguration::FromStream", "OptimizersConfiguration::FromFile", "OptimizersConfiguration::GetGlobalOptimizationParameters"]}]}
{"id": "C148", "title": "Collapsing an edge merges its ends and nothing else", "statement": "CollapseEdge replaces the two nodes of the edge by a new one: edges, faces and cells after it are exactly the old ones with both nodes replaced, except those that degenerate; elements away from the edge stay as they are, no element refers to a deleted one, and no duplicates appear; the new node is at the end that is on the boundary if just one is, and in the middle otherwise.", "quantifier": "all meshes, edges and combinations of faces and cells around the edge", "why_tests_cant": "All polyhedral meshes around the edge, of any size.", "anchors": [{"file": "Source/Mesh/modify.cpp", "symbols": ["Edge::CollapseEdge"]}, {"file": "Source/Mesh/mesh.cpp", "symbols": ["Mesh::CreateEdge", "Mesh::CreateFace", "Mesh::CreateCell"]}]}
{"id": "C149", "title": "Topology checks report what they forbid and act as documented", "statement": "A creation of an edge, face or cell reports an enabled topology check if and only if what it forbids is there (invalid, hidden or repeated adjacent elements, wrong dimensions, degenerate elements, third cell of a face), and nothing else; a call without errors gives the element; under THROW_EXCEPTION a new element is returned only without errors, under DELETE_ON_ERROR no element with errors stays, under MARK_ON_ERROR its tag has the errors; the error state of the mesh collects exactly the errors found.", "quantifier": "all sets of enabled checks, types, lists of adjacent elements, states of the mesh and histories of calls", "why_tests_cant": "All sets of checks with all lists of adjacent elements, and all histories of creation.", "anchors": [{"file": "Source/Mesh/mesh.cpp", "symbols": ["Mesh::BeginTopologyCheck", "Mesh::EndTopologyCheck", "Mesh::CreateEdge", "Mesh::CreateFace", "Mesh::CreateCell"]}]}
{"id": "C150", "title": "The estimate of the condition number is a bound", "statement": "Condest of an internal solver returns a positive number that is not larger than the condition number of the matrix (the largest stretching of a vector over the smallest), whatever the random vectors are; it is one for orthogonal matrices, it is at least one, and it is 1.0e+100 when the iteration does not converge.", "quantifier": "all matrices, exact solvers, random vectors, tolerances and numbers of steps", "why_tests_cant": "All matrices and all random starting vectors.", "anchors": [{"file": "Source/Solver/solver_inner/SolverInner.cpp", "symbols": ["SolverInner::Condest"]}, {"file": "Source/Headers/inmost_solver.h", "symbols": ["Solver::Condest"]}]}
{"id": "C151", "title": "Elements adjacent to nodes and edges by type, and ends of edges", "statement": "getEdges, getFaces, getCells of a node and getNodes, getFaces, getCells of an edge return exactly the adjacent elements of the type that are not hidden, each once; with a marker they return those with the marker (without it, if inverted), in the same order; markers are left as they were; getBeg and getEnd are the two ends and SwapEnds exchanges them; cells of a node are the same with stored connections from nodes to cells and without.", "quantifier": "all meshes, hidden elements, markers, nodes and edges", "why_tests_cant": "All configurations of elements around a node, with all hidden and marked subsets.", "anchors": [{"file": "Source/Mesh/node.cpp", "symbols": ["Node::getEdges", "Node::getFaces", "Node::getCells"]}, {"file": "Source/Mesh/edge.cpp", "symbols": ["Edge::getNodes", "Edge::getFaces", "Edge::getCells", "Edge::getBeg", "Edge::getEnd", "Edge::SwapEnds"]}]}
{"id": "C152", "title": "Values of a tag go to an array and back unchanged", "statement": "CopyTag2Vector puts the value of each element at its position (its local number or the value of a tag) in the array, which is long enough; CopyVector2Tag gives each element the value at its position and changes no other element; one after the other restores the tag.", "quantifier": "all meshes, positions, values and arrays", "why_tests_cant": "All meshes and numberings, including the last position.", "anchors": [{"file": "Source/Mesh/mesh.cpp", "symbols": ["Mesh::CopyVector2Tag", "Mesh::CopyTag2Vector"]}]}
{"id": "C153", "title": "Renaming a tag keeps names distinct and touches no other tag", "statement": "RenameTag succeeds exactly if a tag of the old name exists and none of the new name; then this tag is found under the new name only, and all other tags, their names and their order are as before; otherwise nothing changes.", "quantifier": "all sets of tags and names, all histories of renamings", "why_tests_cant": "All histories of names.", "anchors": [{"file": "Source/Data/tag.cpp", "symbols": ["TagManager::RenameTag", "Tag::ChangeName"]}]}
{"id": "C154", "title": "The check of connectivity accepts exactly consistent meshes", "statement": "CheckConnectivity returns true if and only if for all elements of the mesh upper and lower connections are mutual, without repetitions and without invalid handles.", "quantifier": "all meshes outside of modification, consistent or not", "why_tests_cant": "All meshes, with all ways to be inconsistent.", "anchors": [{"file": "Source/Mesh/element.cpp", "symbols": ["Element::CheckElementConnectivity", "Element::CheckConnectivity"]}]}
{"id": "C155", "title": "The mean of a function over an element is its average", "statement": "Element::Mean returns the average of a constant or affine function over an edge, a face or a cell up to the rounding of the constants of the formula, and the average of a cubic function over an edge exactly, for every shape of the element and every order of its nodes.", "quantifier": "all elements of nonzero measure, all constant and affine functions, cubic functions along edges", "why_tests_cant": "All shapes and all coefficients of functions.", "anchors": [{"file": "Source/Mesh/geometry.cpp", "symbols": ["Element::Mean", "meantri", "meantet"]}]}
{"id": "C156", "title": "Synchronization of a set marks exactly the processors that lack it", "statement": "SynchronizeSetChildren asks the set and all sets below it, SynchronizeSetParents the set and all sets above it, and SynchronizeSetElements the elements of the set, to be sent to exactly those processors that have the family of sets (or the set) and lack the one in question; SynchronizeSetElementsWithOwner to the owner of a ghost set; earlier requests stay and nothing else is asked.", "quantifier": "all hierarchies of sets, all distributions over processors, all earlier requests", "why_tests_cant": "All shapes of the tree of sets and all distributions.", "anchors": [{"file": "Source/Mesh/eset.cpp", "symbols": ["ElementSet::SynchronizeSetChildren", "ElementSet::SynchronizeSetParents", "ElementSet::SynchronizeSetElements", "ElementSet::SynchronizeSetElementsWithOwner"]}, {"file": "Source/Mesh/element.cpp", "symbols": ["Element::SendTo"]}]}
{"id": "C157", "title": "Interpolation over a face reproduces linear functions", "statement": "WachspressInterpolation2D gives each node of a convex face a coefficient that is not negative, with sum one, such that every linear function is reproduced at the point; on a side the coefficients are those of linear interpolation between its two nodes; the map holds nothing else.", "quantifier": "all convex planar faces with any number of nodes, all points inside or on a side", "why_tests_cant": "All shapes of faces and all points.", "anchors": [{"file": "Source/Mesh/geometry.cpp", "symbols": ["Mesh::WachspressInterpolation2D", "triarea3d"]}]}
{"id": "C158", "title": "The test of a point in a cell does not depend on the order of nodes of faces", "statement": "When the orientation of faces was not computed before, Cell::Inside finds out for each face of the cell whether its nodes turn the same way as those of the first face, so that the answer does not depend on the order of nodes and edges in faces.", "quantifier": "all cells whose faces are closed chains of edges, all orders of edges in faces", "why_tests_cant": "All cells and all orders of edges.", "anchors": [{"file": "Source/Mesh/geometry.cpp", "symbols": ["Cell::Inside"]}]}
{"id": "C159", "title": "Changing the number of dimensions keeps the coordinates", "statement": "After SetDimensions(dims) with dims 2 or 3 each node has its first coordinates as before, new coordinates are zero, and other tags are unchanged; other numbers of dimensions are rejected.", "quantifier": "all meshes with any nodes and free places between them, all coordinates and tags", "why_tests_cant": "All meshes, with any free places and hidden nodes.", "anchors": [{"file": "Source/Mesh/mesh.cpp", "symbols": ["Mesh::SetDimensions"]}]}
{"id": "C160", "title": "A ray cast at a face finds the point where it meets the face", "statement": "CastRay for a face adds an entry exactly if the ray meets the face; its number is the parameter of a common point of the ray and the face; the entry is for the node, the edge or the face where the point lies.", "quantifier": "all faces, all rays, all tolerances", "why_tests_cant": "All real positions of rays and faces.", "anchors": [{"file": "Source/Mesh/geometry.cpp", "symbols": ["Element::CastRay"]}]}
{"id": "C161", "title": "The test of a point in a face", "statement": "Face::Inside holds for a point exactly if it is within the tolerance of the plane of the face and, in the plane, lies in the face; for faces that are segments, exactly if the point lies on the segment up to the tolerance.", "quantifier": "all plane faces, all points, all tolerances", "why_tests_cant": "All real positions of points and faces.", "anchors": [{"file": "Source/Mesh/geometry.cpp", "symbols": ["Face::Inside"]}]}
{"id": "C162", "title": "Tests of a common line and a common plane", "statement": "Edge::SameLine holds for edges exactly if their ends are within the tolerance of the line of the first edge; Face::SamePlane holds for nodes or edges exactly if they are within the tolerance of the plane of the face, and for faces exactly if they lie in the plane of the first.", "quantifier": "all arrays of edges, nodes and faces, all tolerances", "why_tests_cant": "All real positions.", "anchors": [{"file": "Source/Mesh/geometry.cpp", "symbols": ["Edge::SameLine", "Face::SamePlane"]}]}
{"id": "C163", "title": "Erasing a range of a set", "statement": "ElementSet::Erase(beg,end) removes exactly the elements between the iterators that are not hidden; the other elements keep their places, and each place that became free is free once for later additions.", "quantifier": "all sets with any free places and hidden elements, all ranges", "why_tests_cant": "All sets and ranges, with any history of removals.", "anchors": [{"file": "Source/Mesh/eset.cpp", "symbols": ["ElementSet::Erase"]}]}
{"id": "C164", "title": "Stored geometric data", "statement": "After any history of PrepareGeometricData and RemoveGeometricData the measure, centre, barycentre and normal of an element are the computed ones; data is stored exactly for kinds and types that were asked for and not removed; the orientation of faces is reported as known only if faces were oriented.", "quantifier": "all meshes, all tables, all histories of calls", "why_tests_cant": "All histories of calls.", "anchors": [{"file": "Source/Mesh/geometry.cpp", "symbols": ["Mesh::PrepareGeometricData", "Mesh::RemoveGeometricData"]}]}
{"id": "C165", "title": "Values packed to messages", "statement": "Vectors that are packed to a message one after another are unpacked with the same values in the same order, for any number and lengths of vectors, also if a vector takes several chunks, and reading stops at the end of what was packed; the size announced for a vector is not less than the bytes it takes.", "quantifier": "all sequences of vectors, all contents of the buffer before and after, all message libraries that conform to the standard", "why_tests_cant": "All lengths, also beyond the limit of one call.", "anchors": [{"file": "Source/Mesh/parallel.cpp", "symbols": ["pack_data_array", "pack_data_vector", "pack_data_vector_size", "unpack_data_array", "unpack_data_vector"]}]}
