import json
r={"mods":["Verif.NN.PropsFrozen"],"props":[["C95","A layer with learning rate zero is frozen",
"A dense layer whose learning rate is zero keeps exactly its weights through any program that trains: any number of feeddata calls of any of the four trainer classes, on any data and for any networks (also networks that share layers), with forwardprop, backprop, predict and both kinds of update called in between, whether the calls return, throw because of sizes or run out of memory at any point. Only trainers with learning-rate decay are excluded: when one reaches its step, all layers of its network, frozen ones included, get a rate that is not zero.",
"all histories of calls, of any length, all networks and ways to share layers, all data and gradients of any sizes, all points at which memory may run out",
"the property quantifies over all call histories and all failure points; a test runs one history.",
["src/layer/layer.cpp: update","src/neuralnet.cpp: forwardprop, backprop, update, predict","src/trainer/trainer.cpp: feeddata","src/trainer/sgdtrainer.cpp: feeddata","src/trainer/batchtrainer.cpp: feeddata","src/trainer/momentumtrainer.cpp: feeddata"]]],
"notes":{"C95":["proved","Over the model with exceptions and memory failures (Exn.lean), which C82_agrees ties to the main model. Dense hidden layers and output layers; exact arithmetic (with doubles W - 0*g is W unless g is infinite or not a number). C95_decay_thaws shows why trainers with decay are excluded."]},
"design":"(C95) A relation between the states before and after a statement, kept by every statement whether it throws or not (Keeps); induction over the history."}
json.dump(r,open('/tmp/gen/r95.json','w'))
