import json
r={"mods":["Verif.NN.PropsCollapse"],"props":[["C102","Hidden layers without activation add nothing",
"A dense network whose hidden activations are all the identity gives, on every input, the same outputs and the same predictions as some network without hidden layers with the same output activation. In particular no such network with two outputs and a strictly increasing output activation predicts the four classes of the xor problem, whatever its depth, widths and weights, while a 2-2-2 network with rectifier hidden units does.",
"all well-formed dense networks with identity hidden activations (any depth, widths, weights), all inputs",
"all depths, weights and inputs are quantified over, and the xor part says that no weights exist.",
["src/neuralnet.cpp: forwardprop, predict","src/layer/layer.cpp: forwardprop","src/layer/outputlayer.cpp: argmax","example/xor_problem.cpp: main"]]],
"notes":{"C102":["proved","C102_collapse, C102_xor; C102_xor_relu shows the hypothesis on the hidden activation is needed. Exact real arithmetic."]},
"design":"(C102) two consecutive affine layers are one affine layer, by exchanging sums; induction over the hidden layers; C28 and C32 carry it to forwardprop and predict; xor is not linearly separable."}
json.dump(r,open('/tmp/gen/r102.json','w'))
