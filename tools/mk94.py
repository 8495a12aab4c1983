import json
r={"mods":["Verif.NN.PropsDead"],"props":[["C94","A rectified unit that is silent on the training data never recovers",
"If a unit of a rectified first hidden layer has a negative pre-activation on every training input, then no amount of training on those inputs, with any labels, any number of passes and any other layers, ever wakes it: each step multiplies the weights into and out of the unit by 1 - lrate*lambda and changes nothing else about it (with lambda = 0 the weights never change), and the unit stays silent on every input on which it was silent.",
"all dense networks of any depth and width with a rectified first layer, all data, all label sequences, all training lengths, all learning rates and regularisations with lrate*lambda < 1",
"an impossibility statement over unbounded training histories: a test can only observe that a unit has not recovered yet.",
["src/act.cpp: relu, relu gradient","src/layer.cpp: forwardprop, backprop, update","src/neuralnet.cpp: forwardprop, backprop, update"]]],
"notes":{"C94":["proved","Exact arithmetic; forwardprop, backprop, update on any sequence of batches (what all trainers except the momentum trainer do between learning-rate changes). In deeper layers the inputs of a unit move, so there a silent unit may wake; no claim is made."]},
"design":"(C94) A silent relu unit has activation 0 and derivative 0, so its column of the layer's gradient and its row of the next layer's gradient are only lambda*W; induction over the batches, silence being kept because its pre-activation is scaled by a positive factor."}
json.dump(r,open('/tmp/gen/r94.json','w'))
