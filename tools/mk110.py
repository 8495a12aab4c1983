import json
r={"mods":["Verif.Tensor.Alloc","Verif.Tensor.PropsAlloc"],"props":[["C110","Tensor operations when memory runs out",
"When a request for memory fails anywhere inside a tensor constructor, a factory (Ones, Eyes, Gaussian), an elementwise, broadcasting, comparing or reducing operation or a matrix product, std::bad_alloc leaves the call, every existing tensor is as before and nothing that was allocated stays allocated. Reshape to no more dimensions leaves the tensor as it was. Copy assignment between tensors of equal size keeps the target usable (with its old shape and the new elements).",
"all tensors and heaps, all sequences of successes and failures of the requests, all OpenMP schedules",
"a test cannot make every request fail at every point of every operation.",
["src/tensor/tensor.cpp: constructors, operator=, Ones, Eyes, Gaussian, Reshape","src/tensor/tensor_shape.cpp: TensorShape, operator=","src/tensor/ops/*.cpp","src/tensor/ops/matmul.cpp: operator%, matmul"]]],
"notes":{"C110":["partial","C110_constructors, C110_operations, C110_matmul, C110_reshape hold in full. Assignment is not safe: C110_assign_refuted (the buffer must grow and new fails: the target keeps the released buffer, its destructor releases it again), C110_move_ctor_refuted (the new buffer leaks), C110_move_assign_refuted (new buffer with old shape), C110_reshape_refuted (more dimensions: new dimensions with the old chunk table); C110_assign_partial is the case that is safe."]},
"design":"(C110) the tensor functions in a monad in which each request for memory may fail; each is compared with the model without failures: either bad_alloc and only released blocks in addition, or the same outcome."}
json.dump(r,open('/tmp/gen/r110.json','w'))
