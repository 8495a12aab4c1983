import json
r={"mods":["Verif.NN.PropsBalance"],"props":[["C103","Rescaling a unit, and the balance of its weights in training",
"Let a hidden layer of a dense network have the identity, the rectifier or the absolute value as activation. Multiplying the bias and weights into each unit by a positive factor and dividing the weights out of it by the same factor changes no output and no prediction on any input. In a training step, for any cost, the inner product of the weights into a unit with their change equals that of the weights out of it (with equal learning rates and no regularisation; general formula otherwise), so the difference of the squared lengths changes only by terms of second order. Training itself is not invariant: rescaled networks that agree on every input may disagree after one step on the same sample.",
"all well-formed dense networks, all layers l and units j, positive factors, inputs, labels, costs with a derivative of the right size, learning rates and regularisations",
"all networks, factors and batches are quantified over; the balance is an identity between sums over all weights of a unit.",
["src/neuralnet.cpp: forwardprop, backprop, update, predict","src/layer/layer.cpp: forwardprop, backprop, update","src/act.cpp: identity, relu, absolute"]]],
"notes":{"C103":["proved","C103_rescale, C103_activations, C103_balance, C103_drift, C103_training_differs. Exact real arithmetic."]},
"design":"(C103) positive homogeneity passes the factor through the activation; z f'(z) = f(z) turns the sum over incoming weights times gradient into that over outgoing weights, by exchanging sums over samples; induction over the layers."}
json.dump(r,open('/tmp/gen/r103.json','w'))
