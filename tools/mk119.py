import json
r={"mods":["Verif.NN.PropsUnits"],"props":[["C119","Changing the units of the features",
"Measuring the features in other units (feature k becomes a_k*v+b_k, a_k not 0) costs nothing: for every dense network there is one with the same layers except for the weights of the first, whose outputs for the features in the new units are those of the old network for the features in the old ones.",
"all dense networks, weights, batches and affine changes of units with non-zero factors",
"all weights and all inputs: a test sees single points.",
["src/neuralnet.cpp: forwardprop, predict","src/layer/layer.cpp: forwardprop"]]],
"notes":{"C119":["proved","C119_units."]},
"design":"(C119) the new first-layer weights are given in closed form; the sum over features is rearranged and the rest of the network is unchanged."}
json.dump(r,open('/tmp/gen/r119.json','w'))
