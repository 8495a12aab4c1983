import json
r={"mods":["Verif.NN.NetThread","Verif.NN.NetThreadLemmas","Verif.NN.PropsThread","Verif.NN.PropsThreadEx"],"props":[["C107","Networks used by several threads",
"Threads that call forwardprop, predict, backprop, update, computecost, getresult, setlrate and setoutputw, each on a network of its own, do not affect each other in any interleaving of their statements, as long as no two of the networks share a hidden layer: each thread's calls return or throw what they would if it ran alone, its network and layers end up the same, and nothing else changes. This includes copies of a network without hidden layers. Copies of a network with hidden layers should be as safe: one per thread.",
"all numbers of threads, networks, layers, sequences of calls and orders of the statements",
"all interleavings; the number of schedules is unbounded, and a race shows in a test only by chance.",
["src/neuralnet.cpp: NeuralNet(const NeuralNet&), forwardprop, backprop, update, predict, setlrate","src/layer/layer.cpp: forwardprop, backprop, update","src/layer/outputlayer.cpp: backprop","src/layer/inputlayer.cpp: forwardprop"]]],
"notes":{"C107":["partial","C107_disjoint: every interleaving, any number of threads. C107_shared and C107_copies_refuted: the copy constructor shares the hidden layers, so with one copy per thread there is an interleaving in which a thread gets the answer for the other thread's input. Statements are atomic in the model; a call of a layer that is not plain dense is one statement; save and load are not among the calls of threads."]},
"design":"(C107) the member functions as sequences of statements, any interleaving; threads with disjoint networks and layers commute, by an invariant over schedules; a witness schedule for shared layers."}
json.dump(r,open('/tmp/gen/r107.json','w'))
