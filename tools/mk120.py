import json
r={"mods":["Verif.NN.PropsPrune"],"props":[["C120","Hidden units that can be removed",
"Hidden units with equal incoming weights can be merged (their outgoing weights are added), and units without outgoing or without incoming weights can be dropped (the constant output of the latter goes into the biases of the next layer), without changing any output or prediction; the same units can be added. A unit whose bias, incoming and outgoing weights are all 0 and whose activation is 0 at 0 keeps these weights in all training, whatever the cost, data and rates.",
"all dense networks, hidden layers, weights, inputs; all training histories",
"all weights, inputs and histories: a test sees single points.",
["src/neuralnet.cpp: forwardprop, predict, backprop, update","src/layer/layer.cpp: forwardprop, backprop","src/act.cpp"]]],
"notes":{"C120":["proved","C120_remove; C120_asleep; C120_activations: which activations are 0 at 0."]},
"design":"(C120) sums over units are regrouped by the unit they are merged into; induction over the training steps for units of zero weights."}
json.dump(r,open('/tmp/gen/r120.json','w'))
