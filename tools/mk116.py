import json
r={"mods":["Verif.Tensor.Threads","Verif.Tensor.PropsThreads","Verif.Tensor.PropsThreadsEx"],"props":[["C116","Tensors used by several threads",
"Threads that each work on tensors of their own and only read the tensors they have in common never fail and never disturb each other: under every interleaving of their calls, and every schedule of the OpenMP loops inside the calls, each thread reads exactly the numbers it reads when it runs alone, and all tensors end with the values they would have then.",
"all numbers of threads, all programs over the tensor API (with control flow that depends on the numbers read), all interleavings and schedules",
"all interleavings: a test sees a few.",
["src/tensor/tensor.cpp","src/tensor/tensor.h","src/tensor/ops"]]],
"notes":{"C116":["proved","C116_threads: any finite set of threads, all interleavings of calls; C116_apart: a call leaves objects and memory of all variables it does not change alone and does not depend on those it does not name, which is why a call may be taken as one step. C116_shared_refuted: the condition that common tensors are only read is needed."]},
"design":"(C116) programs of C84 per thread; a statement depends on and changes only the variables it names (frame lemmas for the specification, env frame for the calls); invariant: every thread is at a point of its own run, with the values of its variables and the shared ones."}
json.dump(r,open('/tmp/gen/r116.json','w'))
