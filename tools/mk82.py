import json
mods=["Verif.NN."+m for m in ["Exn","ExnLemmas","PropsExn","PropsExn2","PropsExn3","PropsExn4"]]
props=[["C82","Exception safety of training and prediction","When forwardprop, backprop, update, predict or a trainer's feeddata throws - because sizes do not fit or because memory is exhausted at any point - the network keeps its layer objects, cost functions, settings and sizes and stays well formed, and no other network is touched. forwardprop, backprop and predict never change a weight. If memory suffices, Trainer and MomentumTrainer leave all weights (and averaged directions) as they were; if not, every weight matrix is as before or as after the complete call, the output layer first and then the hidden layers in order. SGDTrainer and BatchTrainer keep the samples or batches they have completed: they are not all-or-nothing. After any failed step the network can be trained on, and if memory sufficed, exactly as if the failed call had not been made.","all well-formed dense networks, samples, labels of any sizes, trainers, and all points at which a matrix computation may run out of memory","all failure points and all inputs",["src/layer/layer.cpp:forwardprop,backprop,update","src/layer/outputlayer.cpp:backprop","src/neuralnet.cpp:forwardprop,backprop,update,predict","src/trainer/trainer.cpp:feeddata","src/trainer/sgdtrainer.cpp:feeddata","src/trainer/batchtrainer.cpp:feeddata","src/trainer/momentumtrainer.cpp:feeddata"]]]
notes={"C82":["proved","Dense layers; that an assignment which runs out of memory leaves its target as it was or empty, and W = W - lrate*grad works in place, are assumptions on Armadillo (DESIGN.md)."]}
json.dump({"mods":mods,"props":props,"notes":notes,"design":"(C82) the functions once more, statement by statement, as programs that end with a state also when they throw and that may run out of memory at any matrix computation; agreement with the other model, then invariants of the passes and a prefix description of the updates."},open('/tmp/gen/r82.json','w'))
