import json
r={"mods":["Verif.NN.PropsSlopes","Verif.Tensor.Expr","Verif.Tensor.PropsAlgebra"],"props":[["C92","Tensor expressions obey the laws of matrix algebra",
"Every well-shaped expression over vectors and matrices built from variables, Zeros, Ones, Eyes, unary -, the operators + - * / on tensors of the same shape, with a number and with a vector repeated over the rows, %, and reduce_sum over either axis is evaluated without failure, changes no existing tensor, and gives exactly the elements matrix algebra prescribes. Two expressions give the same tensor exactly if they mean the same matrix: % is associative, distributes over + and -, has Eyes as its unit, and is not commutative; + is commutative and associative; * distributes over +; sums are linear; x % w + b is affine in x.",
"all expressions of any size and depth, all shapes, all elements of any ring, all schedules of all parallel loops",
"infinitely many expressions and shapes and every interleaving of the loops; a test evaluates a few operators on small tensors.",
["src/tensor/ops/add.cpp","src/tensor/ops/sub.cpp","src/tensor/ops/mul.cpp","src/tensor/ops/div.cpp","src/tensor/ops/negate.cpp","src/tensor/ops/matmul.cpp: operator%","src/tensor/ops/reduce_sum.cpp","src/tensor/tensor.cpp: Zeros, Ones, Eyes"]]],
"notes":{"C92":["proved","Exact arithmetic in an arbitrary ring; with IEEE elements only the laws that need no reassociation carry over. All dimensions positive and every number of elements an int; rank difference of an operator at most 1 (C14)."]},
"design":"(C92) Typed expressions (Expr.lean), evaluated with the modelled operators on the heap; denotation in Mathlib's matrices; induction over the expression with C04, C05, C13, C14, C16, C18, C21. The laws are then Mathlib's."}
json.dump(r,open('/tmp/gen/r92.json','w'))
