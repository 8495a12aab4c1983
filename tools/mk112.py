import json
r={"mods":["Verif.NN.PropsTurn","Verif.NN.PropsTurnEx"],"props":[["C112","Rotating the features or mirroring units changes nothing",
"Rotate or reflect the features of all training data by an orthogonal matrix and the initial weights of the first layer with them: training gives the same network up to that rotation, and it computes the same outputs for rotated inputs. Negate the weights into and out of any hidden units whose activation function is odd (identity, arctan, tanhyperbolic, bipolarsigmoid, lecuntanh and hardtanh, and no other of the library): the network computes the same outputs, and keeps doing so through any training. With an identity output and the quadratic cost the labels may be rotated too.",
"all dense networks, orthogonal matrices, choices of units, library costs, and all sequences of batches and inputs",
"all networks, all rotations and training histories of any length.",
["src/layer/layer.cpp: forwardprop, backprop, update","src/layer/outputlayer.cpp: backprop","src/output/quadraticoutput.cpp: costfuncdelta","src/act.cpp","src/neuralnet.cpp: forwardprop, backprop, update"]]],
"notes":{"C112":["proved","C112_transformed (any orthogonal changes of features, hidden units and outputs that activations and cost respect), C112_features and C112_signs (its two common cases, stated directly), C112_odd (which activations are odd), C112_linear (identity and quadratic cost respect everything). Networks of dense hidden layers, or none. Over the real numbers."]},
"design":"(C112) forward pass, backward pass and update commute with orthogonal changes of coordinates; two runs related step by step, by induction over layers and batches."}
json.dump(r,open('/tmp/gen/r112.json','w'))
