import json
r={"mods":["Verif.NN.PropsPoison"],"props":[["C126","A batch that a network rejects still marks its normalising layer",
"If the first hidden layer of a network is a normalising one and holds 0, then after forwardprop(x), for every x with at least one value and whatever the layers behind it do, it holds the range of x, even if the call ends with an exception because the width of x does not fit. Classes, weights and activations of the dense layers and of the output layer are those before the call. So a caller who catches the exception and goes on gets other predictions: there is a network and a sample that it puts into class 1, and into class 0 after it has rejected a sample of the wrong width.",
"all networks that begin with a normalising layer, layers of any kinds behind it, all samples of any width",
"all networks and inputs; a test can only try some.",
["src/layer/normlayer.cpp: forwardprop","src/neuralnet.cpp: forwardprop, predict"]]],
"notes":{"C126":["proved","C126_left, C126_poison. Memory is assumed to suffice in the rejected call."]},
"design":"(C126) the calls with the state they leave when they throw (Exn.lean); the step of the normalising layer is computed, and the loop over the other layers leaves it alone whatever happens (Keeps, Spares); the network of C122_refuted for the consequence."}
json.dump(r,open('/tmp/gen/r126.json','w'))
