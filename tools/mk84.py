import json
mods=["Verif.Tensor.PropsLeak","Verif.Tensor.Tests","Verif.Tensor.PropsTests","Verif.Tensor.WitnessTests"]
props=[["C84","Programs that assign results to existing tensors","A program may also assign temporaries or moved tensors to tensors that already have data (t = a + b), move a tensor to itself, and multiply into a tensor that is too small. It still runs without undefined behaviour under every schedule, reads exactly the numbers the value semantics predicts (a tensor moved to itself or assigned from an empty tensor has no data afterwards), and exactly one buffer is lost for every such assignment to a tensor with data: when all tensors are destroyed, that many buffers are still allocated.","every finite sequence of API calls on any number of tensors, every schedule","Histories are unbounded.",["src/tensor/tensor.cpp:operator=","src/tensor/ops/matmul.cpp:matmul"]],
["C85","What the tensor unit tests sample holds for all sizes","Every expectation of the templates in test/tensor (argmax, argmin, arithmetic with a scalar, with a tensor and with broadcasting, equality, exp, log, sqrt, matrix product, negation, sums and means, constructors, reshaping, copying, shapes) holds for every size, shape, scalar and all random draws, under every schedule; the test programs have no undefined behaviour except the one that destroys a tensor made from a single value. The broadcasting test is right in every element it reads also where the result is incomplete (two more dimensions), because it does not read the rest.","every size, shape, draw, scalar and schedule","The tests run some sizes with random values; all sizes and values are out of their reach.",["test/tensor/test_tensor.cpp","test/tensor/test_tensor_shape.cpp","test/tensor/ops/test_tensor_arg.cpp","test/tensor/ops/test_tensor_basic_ops.cpp","test/tensor/ops/test_tensor_equal.cpp","test/tensor/ops/test_tensor_mathops.cpp","test/tensor/ops/test_tensor_matmul.cpp","test/tensor/ops/test_tensor_negate.cpp","test/tensor/ops/test_tensor_reduce.cpp"]]]
notes={"C84":["proved","Assignment to a tensor with more or fewer elements by copy stays excluded (C07)."],
"C85":["proved","argmax, argmin, sums, means and == in an ordered field (exact arithmetic); all other operations for any element type. Not covered: the statistical expectations of TestCreateGaussianTensor. TestReduceMean compares with an integer quotient, see C85_reduce_mean."]}
json.dump({"mods":mods,"props":props,"notes":notes,"design":"(C84) the invariant of C12 with a list of lost buffers; each kind of assignment either keeps or extends it. (C85) the test templates as programs in the language of C12, evaluated by the rules of C84."},open('/tmp/gen/r84.json','w'))
